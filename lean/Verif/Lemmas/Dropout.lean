import Verif.Spec.Dropout
import Mathlib.Algebra.BigOperators.Pi
import Mathlib.Algebra.BigOperators.Field
/-
Lemmas for C113: layers with dropout on rows that correspond; expectations.
-/
namespace Verif.Dropout
open Verif.Masks Verif.Transformer Verif.Transformer.Spec Verif.Dropout.Spec

variable {d h e f V N M : Nat} {ex : ℝ → ℝ} {lg : ℕ → ℝ} {θ B : ℝ}

/-! ### No dropout -/

theorem drop_det (md : Mode) (hmd : md.deterministic = true ∨ md.rate = 0) (k : Bool) (x : ℝ) : md.drop k x = x := by
  unfold Mode.drop dropout
  rw [if_pos (hmd.symm)]

theorem factor_det (md : Mode) (hmd : md.deterministic = true ∨ md.rate = 0) (k : Bool) : md.factor k = 1 := by
  unfold Mode.factor multiplier
  rw [if_neg]
  rintro ⟨h1, h2⟩
  rcases hmd with h | h
  · rw [h] at h1; cases h1
  · rw [h] at h2; exact lt_irrefl _ h2

theorem attention_one {L : Nat} (p : Attn d h e) (xq : Vec d) (xkv : Fin L → Vec d) (mask : Option (Fin L → Int))
    (bias : Option (Fin h → Fin L → ℝ)) : attention ex p (fun _ _ => 1) xq xkv mask bias = Transformer.attention ex p xq xkv mask bias := by
  simp only [attention, Transformer.attention, mul_one]

theorem mlpBlock_id (eps : ℝ) (scale : Vec d) (p : Mlp d f) (x : Vec d) :
    mlpBlock eps scale p (fun _ x => x) (fun _ x => x) x = Transformer.mlpBlock eps scale p x := rfl

theorem foldl_ofFn {α β : Type} {n : Nat} (F : β → α → β) (g : Fin n → α) (b : β) :
    (List.ofFn g).foldl F b = (List.finRange n).foldl (fun b i => F b (g i)) b := by
  rw [List.ofFn_eq_map, List.foldl_map]

/-! ### Attention with dropout over corresponding keys -/

theorem attention_sim {n1 n2 : Nat} (hex : Underflows ex θ) (hgap : 2 * B + θ ≤ 1e10) (hB : 2 * B < 1e10)
    (p : Attn d h e) (xq : Vec d) (C : Fin n1 → Fin n2 → Prop) (hinj : ∀ k k' l, C k l → C k' l → k = k')
    (hfun : ∀ k l l', C k l → C k l' → l = l') (f1 : Fin h → Fin n1 → ℝ) (f2 : Fin h → Fin n2 → ℝ) (x1 : Fin n1 → Vec d) (x2 : Fin n2 → Vec d)
    (m1 : Fin n1 → Int) (m2 : Fin n2 → Int) (b1 : Option (Fin h → Fin n1 → ℝ)) (b2 : Option (Fin h → Fin n2 → ℝ))
    (hr1 : ∀ hd k, |raw (project p.query xq) (fun k => project p.key (x1 k)) b1 hd k| ≤ B)
    (hr2 : ∀ hd k, |raw (project p.query xq) (fun k => project p.key (x2 k)) b2 hd k| ≤ B)
    (hne : ∃ k, m1 k > 0) (hm1 : ∀ k, m1 k > 0 → ∃ l, C k l ∧ m2 l > 0) (hm2 : ∀ l, m2 l > 0 → ∃ k, C k l ∧ m1 k > 0)
    (hf : ∀ hd k l, C k l → f1 hd k = f2 hd l) (hx : ∀ k l, C k l → m1 k > 0 → x1 k = x2 l)
    (hb : ∀ hd k l, C k l → (b1.elim 0 fun b => b hd k) = (b2.elim 0 fun b => b hd l)) :
    attention ex p f1 xq x1 (some m1) b1 = attention ex p f2 xq x2 (some m2) b2 := by
  unfold attention
  congr 1
  funext hd c
  have e1 : logitsOf (project p.query xq) (fun j => project p.key (x1 j)) (some m1) b1 hd =
      fun k => raw (project p.query xq) (fun k => project p.key (x1 k)) b1 hd k + maskBias (m1 k) := by
    funext k; rw [logitsOf_some]
  have e2 : logitsOf (project p.query xq) (fun j => project p.key (x2 j)) (some m2) b2 hd =
      fun k => raw (project p.query xq) (fun k => project p.key (x2 k)) b2 hd k + maskBias (m2 k) := by
    funext k; rw [logitsOf_some]
  rw [e1, e2]
  simp only [mul_assoc]
  refine average_sim ex θ B hex hgap hB C hinj hfun _ _ _ _ m1 m2 (hr1 hd) (hr2 hd) hne hm1 hm2 ?_ ?_
  · intro k l hc hk
    simp only [raw]
    rw [hx k l hc hk, hb hd k l hc]
  · intro k l hc hk
    rw [hx k l hc hk, hf hd k l hc]

theorem block_sim (hex : Underflows ex θ) (hθ : 0 < θ) (hgap : 2 * B + θ ≤ 1e10) {eps : ℝ} (heps : 0 ≤ eps) {rel : Fin h → ℤ → ℝ} {r : ℝ}
    (hr : ∀ hd b, |rel hd b| ≤ r) (bi : Bool) {n1 n2 : Nat} {δ : ℤ} {R : Fin n1 → Fin n2 → Prop} {M1 : Mask n1 n1} {M2 : Mask n2 n2}
    (hc : Corr δ R M1 M2) (p : EncLayer d h e f) (hp : ∀ hd, logitBound p.attention p.preAttention p.preAttention r hd ≤ B)
    (f1 : Fin h → Fin n1 → ℝ) (f2 : Fin h → Fin n2 → ℝ) (hf : ∀ hd i j, R i j → f1 hd i = f2 hd j) (post : Fin d → ℝ → ℝ) (inner : Fin f → ℝ → ℝ)
    (postMlp : Fin d → ℝ → ℝ) (x1 : Fin n1 → Vec d) (x2 : Fin n2 → Vec d) (hx : ∀ i j, R i j → x1 i = x2 j) (i : Fin n1) (j : Fin n2) (hij : R i j) :
    block ex lg eps rel bi f1 post inner postMlp (some M1) p x1 i = block ex lg eps rel bi f2 post inner postMlp (some M2) p x2 j := by
  simp only [block, Option.map_some]
  rw [← hx i j hij]
  have ha : attention ex p.attention f1 (layerNorm eps p.preAttention (x1 i)) (fun j => layerNorm eps p.preAttention (x1 j))
        (some (M1 i)) (some (relBias lg rel bi n1 i)) =
      attention ex p.attention f2 (layerNorm eps p.preAttention (x1 i)) (fun j => layerNorm eps p.preAttention (x2 j))
        (some (M2 j)) (some (relBias lg rel bi n2 j)) := by
    refine attention_sim hex hgap (by linarith) _ _ R (Corr.inj hc.off).1 (Corr.inj hc.off).2 _ _ _ _ _ _ _ _ ?_ ?_
      (hc.some i j hij) (hc.fwd i j hij) (hc.bwd i j hij) hf ?_ ?_
    · intro hd k
      exact (raw_le eps heps _ _ _ _ _ (some (relBias lg rel bi n1 i)) r (fun hd k => relBias_le lg _ r hr _ _ _ _ _) hd k).trans (hp hd)
    · intro hd k
      exact (raw_le eps heps _ _ _ _ _ (some (relBias lg rel bi n2 j)) r (fun hd k => relBias_le lg _ r hr _ _ _ _ _) hd k).trans (hp hd)
    · intro k l' hkl _; rw [hx k l' hkl]
    · intro hd k l' hkl
      exact relBias_shift lg rel bi i k j l' δ (hc.off _ _ hij) (hc.off _ _ hkl) hd
  rw [ha]

theorem drop_le (md : Mode) (h0 : 0 ≤ md.rate) (h1 : md.rate < 1) (k : Bool) (x : ℝ) : |md.drop k x| ≤ |x| / (1 - md.rate) := by
  have h2 : 0 < 1 - md.rate := by linarith
  have h3 : |x| ≤ |x| / (1 - md.rate) := by
    rw [le_div_iff₀ h2]
    nlinarith [abs_nonneg x]
  unfold Mode.drop dropout
  split_ifs with a b c
  · exact h3
  · rw [abs_zero]; positivity
  · rw [abs_div, abs_of_pos h2]
  · rw [abs_zero]; positivity

/-- The bound of `raw_le` for keys that come out of a dropout. -/
theorem raw_drop_le {L : Nat} (eps : ℝ) (he : 0 ≤ eps) (md : Mode) (h0 : 0 ≤ md.rate) (h1 : md.rate < 1) (p : Attn d h e) (qs ks xq : Vec d)
    (xk : Fin L → Vec d) (keep : Fin L → Fin d → Bool) (hd : Fin h) (j : Fin L) :
    |raw (project p.query (layerNorm eps qs xq)) (fun j => project p.key fun c => md.drop (keep j c) (layerNorm eps ks (xk j) c)) none hd j| ≤
      logitBound p qs ks 0 hd / (1 - md.rate) := by
  have h2 : 0 < 1 - md.rate := by linarith
  have hk : ∀ c, |project p.key (fun c => md.drop (keep j c) (layerNorm eps ks (xk j) c)) hd c| ≤ reach ks p.key hd c / (1 - md.rate) := by
    intro c
    unfold project reach
    refine (Finset.abs_sum_le_sum_abs _ _).trans ?_
    rw [Finset.mul_sum, Finset.sum_div]
    refine Finset.sum_le_sum fun i _ => ?_
    rw [abs_mul, ← mul_assoc, mul_div_right_comm]
    refine mul_le_mul_of_nonneg_right ((drop_le md h0 h1 _ _).trans ?_) (abs_nonneg _)
    exact div_le_div_of_nonneg_right (layerNorm_le eps he ks (xk j) i) h2.le
  simp only [raw, logitBound, Option.elim_none, add_zero]
  refine (Finset.abs_sum_le_sum_abs _ _).trans ?_
  rw [Finset.sum_div]
  refine Finset.sum_le_sum fun c _ => ?_
  rw [abs_mul, mul_div_assoc]
  exact mul_le_mul (project_le eps he qs xq _ hd c) (hk c) (abs_nonneg _) ((abs_nonneg _).trans (project_le eps he qs xq _ hd c))

/-! ### The encoder-decoder network on corresponding rows -/

variable {net : TrainNet d h e f V N M} {md : Mode}

theorem enc_sim (hex : Underflows ex θ) (hθ : 0 < θ) (ht : TameTrain net md.rate θ B) {n1 m1 n2 m2 : Nat} {δ δe : ℤ} {Q : Fin m1 → Fin m2 → Prop}
    {A1 : Mask m1 m1} {A2 : Mask m2 m2} (hc : Corr δe Q A1 A2) {k1 : Site n1 m1 d h f N M → Bool} {k2 : Site n2 m2 d h f N M → Bool}
    (hk : SameKeep δ δe k1 k2) :
    ∀ (ls : List (Fin N)) (x1 : Fin m1 → Vec d) (x2 : Fin m2 → Vec d), (∀ i j, Q i j → x1 i = x2 j) → ∀ i j, Q i j →
      ls.foldl (encLayer ex lg net md k1 (some A1)) x1 i = ls.foldl (encLayer ex lg net md k2 (some A2)) x2 j := by
  intro ls
  induction ls with
  | nil => intro x1 x2 hx; exact hx
  | cons l ls ih =>
    intro x1 x2 hx
    rw [List.foldl_cons, List.foldl_cons]
    refine ih _ _ ?_
    intro i j hij
    obtain ⟨r, hr, hrB⟩ := ht.tame.enc
    have hl : net.enc l ∈ net.toNet.enc := by simp [TrainNet.toNet]
    have e1 : ∀ c, k1 (.encPost l c) = k2 (.encPost l c) := fun c => hk _ _ (.encPost l c)
    have e2 : ∀ c, k1 (.encInner l c) = k2 (.encInner l c) := fun c => hk _ _ (.encInner l c)
    have e3 : ∀ c, k1 (.encPostMlp l c) = k2 (.encPostMlp l c) := fun c => hk _ _ (.encPostMlp l c)
    simp only [encLayer, e1, e2, e3]
    refine block_sim hex hθ ht.tame.gap ht.tame.eps hr true hc (net.enc l) (hrB _ hl) _ _ ?_ _ _ _ x1 x2 hx i j hij
    intro hd i j hij
    rw [hk _ _ (.encAttention l hd i j (hc.off i j hij))]

theorem encoder_sim (hex : Underflows ex θ) (hθ : 0 < θ) (ht : TameTrain net md.rate θ B) {n1 m1 n2 m2 : Nat} {δ δe : ℤ}
    {Q : Fin m1 → Fin m2 → Prop} {A1 : Mask m1 m1} {A2 : Mask m2 m2} (hc : Corr δe Q A1 A2) {k1 : Site n1 m1 d h f N M → Bool}
    {k2 : Site n2 m2 d h f N M → Bool} (hk : SameKeep δ δe k1 k2) (t1 : Row m1) (t2 : Row m2) (htok : ∀ i j, Q i j → t1 i = t2 j) (i : Fin m1)
    (j : Fin m2) (hij : Q i j) : encoder ex lg net md k1 t1 (some A1) i = encoder ex lg net md k2 t2 (some A2) j := by
  funext c
  simp only [encoder]
  rw [enc_sim hex hθ ht hc hk (List.finRange N) _ (fun i c => md.drop (k2 (.encInput c)) (embed net.table (t2 i) c)) ?_ i j hij,
    hk _ _ (.encOutput i j c (hc.off i j hij))]
  intro i j hij
  funext c
  rw [hk _ _ (.encInput c), htok i j hij]

theorem dec_sim (hex : Underflows ex θ) (hθ : 0 < θ) (ht : TameTrain net md.rate θ B) {n1 n2 m1 m2 : Nat} {δ : ℤ} {R : Fin n1 → Fin n2 → Prop}
    {M1 : Mask n1 n1} {M2 : Mask n2 n2} (hc : Corr δ R M1 M2) {C1 : Mask n1 m1} {C2 : Mask n2 m2} {δe : ℤ} {Q : Fin m1 → Fin m2 → Prop}
    (hQ : ∀ i j, Q i j → (j.val : ℤ) = i.val + δe) (hC : ∀ i j, R i j → ∃ k, C1 i k > 0)
    (hC1 : ∀ i j, R i j → ∀ k, C1 i k > 0 → ∃ l, Q k l ∧ C2 j l > 0) (hC2 : ∀ i j, R i j → ∀ l, C2 j l > 0 → ∃ k, Q k l ∧ C1 i k > 0)
    {k1 : Site n1 m1 d h f N M → Bool} {k2 : Site n2 m2 d h f N M → Bool} (hk : SameKeep δ δe k1 k2) (t1 : Row m1) (t2 : Row m2)
    (A1 : Option (Mask m1 m1)) (A2 : Option (Mask m2 m2))
    (hee : ∀ k l, Q k l → encoder ex lg net md k1 t1 A1 k = encoder ex lg net md k2 t2 A2 l) :
    ∀ (ls : List (Fin M)) (x1 : Fin n1 → Vec d) (x2 : Fin n2 → Vec d), (∀ i j, R i j → x1 i = x2 j) → ∀ i j, R i j →
      ls.foldl (decLayer ex lg net md k1 (some M1) (some C1) (encoder ex lg net md k1 t1 A1)) x1 i =
        ls.foldl (decLayer ex lg net md k2 (some M2) (some C2) (encoder ex lg net md k2 t2 A2)) x2 j := by
  intro ls
  induction ls with
  | nil => intro x1 x2 hx; exact hx
  | cons l ls ih =>
    intro x1 x2 hx
    rw [List.foldl_cons, List.foldl_cons]
    refine ih _ _ ?_
    intro i j hij
    have hgap := ht.tame.gap
    have hlr : net.dec l ∈ net.toNet.dec := by simp [TrainNet.toNet]
    obtain ⟨r, hr, hrB⟩ := ht.tame.dec
    have e1 : ∀ c, k1 (.decPostSelf l c) = k2 (.decPostSelf l c) := fun c => hk _ _ (.decPostSelf l c)
    have e2 : ∀ c, k1 (.decInner l c) = k2 (.decInner l c) := fun c => hk _ _ (.decInner l c)
    have e3 : ∀ c, k1 (.decPostMlp l c) = k2 (.decPostMlp l c) := fun c => hk _ _ (.decPostMlp l c)
    have e4 : ∀ c, k1 (.decPostCross l c) = k2 (.decPostCross l c) := fun c => hk _ _ (.decPostCross l c)
    simp only [decLayer, Option.map_some, e1, e2, e3, e4]
    rw [← hx i j hij]
    have ha : attention ex (net.dec l).self (fun hd k => md.factor (k1 (.decSelf l hd k))) (layerNorm net.eps (net.dec l).preSelf (x1 i))
          (fun j => layerNorm net.eps (net.dec l).preSelf (x1 j)) (some (M1 i)) (some (relBias lg net.decRel false n1 i)) =
        attention ex (net.dec l).self (fun hd k => md.factor (k2 (.decSelf l hd k))) (layerNorm net.eps (net.dec l).preSelf (x1 i))
          (fun j => layerNorm net.eps (net.dec l).preSelf (x2 j)) (some (M2 j)) (some (relBias lg net.decRel false n2 j)) := by
      refine attention_sim hex hgap (by linarith) _ _ R (Corr.inj hc.off).1 (Corr.inj hc.off).2 _ _ _ _ _ _ _ _ ?_ ?_
        (hc.some i j hij) (hc.fwd i j hij) (hc.bwd i j hij) ?_ ?_ ?_
      · intro hd k
        exact (raw_le net.eps ht.tame.eps _ _ _ _ _ (some (relBias lg net.decRel false n1 i)) r
          (fun hd k => relBias_le lg _ r hr _ _ _ _ _) hd k).trans (hrB _ hlr hd)
      · intro hd k
        exact (raw_le net.eps ht.tame.eps _ _ _ _ _ (some (relBias lg net.decRel false n2 j)) r
          (fun hd k => relBias_le lg _ r hr _ _ _ _ _) hd k).trans (hrB _ hlr hd)
      · intro hd i j hij; rw [hk _ _ (.decSelf l hd i j (hc.off i j hij))]
      · intro k l' hkl _; rw [hx k l' hkl]
      · intro hd k l' hkl
        exact relBias_shift lg net.decRel false i k j l' δ (hc.off _ _ hij) (hc.off _ _ hkl) hd
    rw [ha]
    generalize attention ex (net.dec l).self (fun hd k => md.factor (k2 (.decSelf l hd k))) (layerNorm net.eps (net.dec l).preSelf (x1 i))
          (fun j => layerNorm net.eps (net.dec l).preSelf (x2 j)) (some (M2 j)) (some (relBias lg net.decRel false n2 j)) = y
    generalize (fun c => md.drop (k2 (.decPostSelf l c)) (y c) + x1 i c) = y
    have hb : attention ex (net.dec l).cross (fun hd k => md.factor (k1 (.decCross l hd k))) (layerNorm net.eps (net.dec l).preCross y)
          (encoder ex lg net md k1 t1 A1) (some (C1 i)) none =
        attention ex (net.dec l).cross (fun hd k => md.factor (k2 (.decCross l hd k))) (layerNorm net.eps (net.dec l).preCross y)
          (encoder ex lg net md k2 t2 A2) (some (C2 j)) none := by
      refine attention_sim hex hgap (by linarith) _ _ Q (Corr.inj hQ).1 (Corr.inj hQ).2 _ _ _ _ _ _ _ _ ?_ ?_
        (hC i j hij) (hC1 i j hij) (hC2 i j hij) ?_ ?_ ?_
      · intro hd k
        exact (raw_drop_le net.eps ht.tame.eps md ht.rate0 ht.rate1 _ _ _ _ _ (fun k c => k1 (.encOutput k c)) hd k).trans (ht.cross l hd)
      · intro hd k
        exact (raw_drop_le net.eps ht.tame.eps md ht.rate0 ht.rate1 _ _ _ _ _ (fun k c => k2 (.encOutput k c)) hd k).trans (ht.cross l hd)
      · intro hd i j hij; rw [hk _ _ (.decCross l hd i j (hQ i j hij))]
      · intro k l' hkl _; exact hee k l' hkl
      · intro hd k l' _; rfl
    rw [hb]

/-- The masks of two rows that hold the same example, and the positions that correspond. -/
theorem rows_corr {n1 m1 n2 m2 : Nat} (b1 : Input n1 m1) (b2 : Input n2 m2)
    (hs1 : SegsOk b1) (hs2 : SegsOk b2) (δ δe : ℤ) (s1 s2 : Int) (i : Fin n1) (j : Fin n2) (hij : (j.val : ℤ) = i.val + δ)
    (hd : SameText (fun p => p ≤ i.val) δ s1 s2 b1.decSeg b1.decTargets b1.decInputs b2.decSeg b2.decTargets b2.decInputs)
    (he : SameText Everywhere δe s1 s2 b1.encSeg b1.encTokens b1.encTokens b2.encSeg b2.encTokens b2.encTokens)
    (hi : InSeg b1.decSeg s1 i) (hti : b1.decTargets i > 0) (hne : ∃ k, InSeg b1.encSeg s1 k ∧ b1.encTokens k > 0) :
    ∃ A1 A2 M1 M2 C1 C2, ∃ (Q : Fin m1 → Fin m2 → Prop) (R : Fin n1 → Fin n2 → Prop),
      (makeEncoderMask b1.encTokens b1.encSeg = some A1 ∧ makeEncoderMask b2.encTokens b2.encSeg = some A2) ∧
      (makeDecoderMask b1.decTargets none b1.decSeg = some M1 ∧ makeDecoderMask b2.decTargets none b2.decSeg = some M2) ∧
      (makeEncoderDecoderMask b1.decTargets b1.encTokens b1.decSeg b1.encSeg = some C1 ∧
        makeEncoderDecoderMask b2.decTargets b2.encTokens b2.decSeg b2.encSeg = some C2) ∧
      Corr δe Q A1 A2 ∧ Corr δ R M1 M2 ∧ (∀ i j, R i j → ∃ k, C1 i k > 0) ∧
      (∀ i j, R i j → ∀ k, C1 i k > 0 → ∃ l, Q k l ∧ C2 j l > 0) ∧ (∀ i j, R i j → ∀ l, C2 j l > 0 → ∃ k, Q k l ∧ C1 i k > 0) ∧
      (∀ i j, Q i j → b1.encTokens i = b2.encTokens j) ∧ (∀ p q, R p q → b1.decInputs p = b2.decInputs q) ∧ R i j := by
  obtain ⟨A1, hA1, sA1⟩ := encMask b1.encTokens b1.encSeg
  obtain ⟨A2, hA2, sA2⟩ := encMask b2.encTokens b2.encSeg
  obtain ⟨M1, hM1, sM1⟩ := decMask b1.decTargets b1.decSeg
  obtain ⟨M2, hM2, sM2⟩ := decMask b2.decTargets b2.decSeg
  obtain ⟨C1, hC1, sC1⟩ := crossMask b1.decTargets b1.encTokens b1.decSeg b1.encSeg hs1
  obtain ⟨C2, hC2, sC2⟩ := crossMask b2.decTargets b2.encTokens b2.decSeg b2.encSeg hs2
  let Q : Fin m1 → Fin m2 → Prop := fun i j => (j.val : ℤ) = i.val + δe ∧ InSeg b1.encSeg s1 i ∧ b1.encTokens i > 0 ∧
    InSeg b2.encSeg s2 j ∧ b2.encTokens j > 0
  let R : Fin n1 → Fin n2 → Prop := fun p q => (q.val : ℤ) = p.val + δ ∧ InSeg b1.decSeg s1 p ∧ b1.decTargets p > 0 ∧
    InSeg b2.decSeg s2 q ∧ b2.decTargets q > 0 ∧ p.val ≤ i.val
  have qf : ∀ i, InSeg b1.encSeg s1 i → b1.encTokens i > 0 → ∃ j, Q i j := fun i a b => by
    obtain ⟨j, h1, h2, h3, _⟩ := he.fwd i trivial a b; exact ⟨j, h1, a, b, h2, h3⟩
  have qb : ∀ j, InSeg b2.encSeg s2 j → b2.encTokens j > 0 → ∃ i, Q i j := fun j a b => by
    obtain ⟨i, h1, h2, h3⟩ := he.bwd j trivial a b; exact ⟨i, h1, h2, h3, a, b⟩
  have rf : ∀ p, p.val ≤ i.val → InSeg b1.decSeg s1 p → b1.decTargets p > 0 → ∃ q, R p q := fun p hp a b => by
    obtain ⟨j, h1, h2, h3, _⟩ := hd.fwd p (by omega) a b; exact ⟨j, h1, a, b, h2, h3, hp⟩
  have rb : ∀ q : Fin n2, (q.val : ℤ) ≤ i.val + δ → InSeg b2.decSeg s2 q → b2.decTargets q > 0 → ∃ p, R p q := fun q hq a b => by
    obtain ⟨p, h1, h2, h3⟩ := hd.bwd q (by omega) a b; exact ⟨p, h1, h2, h3, a, b, by omega⟩
  refine ⟨A1, A2, M1, M2, C1, C2, Q, R, ⟨hA1, hA2⟩, ⟨hM1, hM2⟩, ⟨hC1, hC2⟩, ?_, ?_, ?_, ?_, ?_, ?_, ?_, ?_⟩
  · refine ⟨fun i j h => h.1, fun i j h => ⟨i, (sA1 i i).2 ⟨h.2.2.1, h.2.2.1, fun _ _ => rfl⟩⟩, ?_, ?_⟩
    · rintro i j ⟨h1, h2, h3, h4, h5⟩ k hk
      obtain ⟨_, hk2, hk3⟩ := (sA1 i k).1 hk
      obtain ⟨l, hl⟩ := qf k (fun r hr => by rw [← hk3 r hr]; exact h2 r hr) hk2
      exact ⟨l, hl, (sA2 j l).2 ⟨h5, hl.2.2.2.2, fun r hr => by rw [h4 r hr, hl.2.2.2.1 r hr]⟩⟩
    · rintro i j ⟨h1, h2, h3, h4, h5⟩ l hl
      obtain ⟨_, hl2, hl3⟩ := (sA2 j l).1 hl
      obtain ⟨k, hk⟩ := qb l (fun r hr => by rw [← hl3 r hr]; exact h4 r hr) hl2
      exact ⟨k, hk, (sA1 i k).2 ⟨h3, hk.2.2.1, fun r hr => by rw [h2 r hr, hk.2.1 r hr]⟩⟩
  · refine ⟨fun i j h => h.1, fun i j h => ⟨i, (sM1 i i).2 ⟨h.2.2.1, h.2.2.1, le_rfl, fun _ _ => rfl⟩⟩, ?_, ?_⟩
    · rintro p q ⟨h1, h2, h3, h4, h5, h6⟩ k hk
      obtain ⟨_, hk2, hki, hk3⟩ := (sM1 p k).1 hk
      rw [Fin.le_def] at hki
      obtain ⟨l, hl⟩ := rf k (by omega) (fun r hr => by rw [← hk3 r hr]; exact h2 r hr) hk2
      refine ⟨l, hl, (sM2 q l).2 ⟨h5, hl.2.2.2.2.1, ?_, fun r hr => by rw [h4 r hr, hl.2.2.2.1 r hr]⟩⟩
      have := hl.1; rw [Fin.le_def]; omega
    · rintro p q ⟨h1, h2, h3, h4, h5, h6⟩ l hl
      obtain ⟨_, hl2, hli, hl3⟩ := (sM2 q l).1 hl
      rw [Fin.le_def] at hli
      obtain ⟨k, hk⟩ := rb l (by omega) (fun r hr => by rw [← hl3 r hr]; exact h4 r hr) hl2
      refine ⟨k, hk, (sM1 p k).2 ⟨h3, hk.2.2.1, ?_, fun r hr => by rw [h2 r hr, hk.2.1 r hr]⟩⟩
      have := hk.1; rw [Fin.le_def]; omega
  · rintro i j ⟨_, h2, h3, _⟩
    obtain ⟨k, hk, hk'⟩ := hne
    exact ⟨k, (sC1 i k).2 ⟨h3, hk', fun s t hs ht' => by rw [h2 s hs, hk t ht']⟩⟩
  · rintro i j ⟨h1, h2, h3, h4, h5, _⟩ k hk
    obtain ⟨_, hk2, hk3⟩ := (sC1 i k).1 hk
    have hkseg : InSeg b1.encSeg s1 k := by
      intro t ht'
      obtain ⟨s, hs⟩ := Option.isSome_iff_exists.1 (hs1 (by rw [ht']; rfl))
      rw [← hk3 s t hs ht']; exact h2 s hs
    obtain ⟨l, hl⟩ := qf k hkseg hk2
    exact ⟨l, hl, (sC2 j l).2 ⟨h5, hl.2.2.2.2, fun s t hs ht' => by rw [h4 s hs, hl.2.2.2.1 t ht']⟩⟩
  · rintro i j ⟨h1, h2, h3, h4, h5, _⟩ l hl
    obtain ⟨_, hl2, hl3⟩ := (sC2 j l).1 hl
    have hlseg : InSeg b2.encSeg s2 l := by
      intro t ht'
      obtain ⟨s, hs⟩ := Option.isSome_iff_exists.1 (hs2 (by rw [ht']; rfl))
      rw [← hl3 s t hs ht']; exact h4 s hs
    obtain ⟨k, hk⟩ := qb l hlseg hl2
    exact ⟨k, hk, (sC1 i k).2 ⟨h3, hk.2.2.1, fun s t hs ht' => by rw [h2 s hs, hk.2.1 t ht']⟩⟩
  · rintro i j ⟨h1, h2, h3, _⟩
    obtain ⟨j', h1', _, _, h3'⟩ := he.fwd i trivial h2 h3
    have : j = j' := by ext; omega
    rw [this, h3']
  · rintro p q ⟨h1, h2, h3, h4, h5, h6⟩
    obtain ⟨j', h1', _, _, h4'⟩ := hd.fwd p (by omega) h2 h3
    have : q = j' := by ext; omega
    rw [this, h4']
  · obtain ⟨j', hj'⟩ := rf i le_rfl hi hti
    have : j = j' := by have := hj'.1; ext; omega
    rw [this]; exact hj'

/-! ### Expectations -/

section Expect
variable {S T : Type} [Fintype S] [DecidableEq S] [Fintype T] [DecidableEq T]

theorem prob_sum (q : ℝ) : ∑ keep : S → Bool, prob q keep = 1 := by
  unfold prob
  have := Finset.prod_univ_sum (fun _ : S => (Finset.univ : Finset Bool)) (fun _ b => if b = true then q else 1 - q)
  rw [Fintype.piFinset_univ] at this
  rw [← this]
  simp

theorem expect_const (q c : ℝ) : expect (S := S) q (fun _ => c) = c := by
  unfold expect
  rw [← Finset.sum_mul, prob_sum, one_mul]

theorem expect_add (q : ℝ) (F G : (S → Bool) → ℝ) : expect q (fun k => F k + G k) = expect q F + expect q G := by
  unfold expect
  rw [← Finset.sum_add_distrib]
  exact Finset.sum_congr rfl fun k _ => mul_add _ _ _

theorem expect_mul (q c : ℝ) (F : (S → Bool) → ℝ) : expect q (fun k => F k * c) = expect q F * c := by
  unfold expect
  rw [Finset.sum_mul]
  exact Finset.sum_congr rfl fun k _ => (mul_assoc _ _ _).symm

theorem expect_sum {ι : Type} (s : Finset ι) (q : ℝ) (F : ι → (S → Bool) → ℝ) :
    expect q (fun k => ∑ i ∈ s, F i k) = ∑ i ∈ s, expect q (F i) := by
  unfold expect
  rw [Finset.sum_comm]
  exact Finset.sum_congr rfl fun k _ => Finset.mul_sum _ _ _

/-- Only the bits that a function looks at matter for its expectation. -/
theorem expect_comp (φ : S → T) (hφ : Function.Injective φ) (q : ℝ) (F : (S → Bool) → ℝ) :
    expect q (fun k : T → Bool => F (k ∘ φ)) = expect q F := by
  classical
  let e : S ⊕ {t // t ∉ Set.range φ} ≃ T :=
    ((Equiv.ofInjective φ hφ).sumCongr (Equiv.refl _)).trans (Equiv.Set.sumCompl (Set.range φ))
  have he : ∀ s, e (Sum.inl s) = φ s := fun s => rfl
  unfold expect
  rw [← (Equiv.arrowCongr e (Equiv.refl Bool)).sum_comp, ← (Equiv.sumArrowEquivProdArrow _ _ _).symm.sum_comp, Fintype.sum_prod_type]
  refine Finset.sum_congr rfl fun a _ => ?_
  have h1 : ∀ b : {t // t ∉ Set.range φ} → Bool,
      (((Equiv.arrowCongr e (Equiv.refl Bool)) ((Equiv.sumArrowEquivProdArrow _ _ _).symm (a, b))) ∘ φ) = a := by
    intro b
    funext s
    simp only [Function.comp, Equiv.arrowCongr_apply, Equiv.coe_refl, id, ← he, Equiv.symm_apply_apply]
    rfl
  have h2 : ∀ b : {t // t ∉ Set.range φ} → Bool,
      prob q ((Equiv.arrowCongr e (Equiv.refl Bool)) ((Equiv.sumArrowEquivProdArrow _ _ _).symm (a, b))) = prob q a * prob q b := by
    intro b
    unfold prob
    rw [← e.prod_comp, Fintype.prod_sum_type]
    simp only [Equiv.arrowCongr_apply, Function.comp, Equiv.coe_refl, id, Equiv.symm_apply_apply]
    rfl
  simp only [h1, h2]
  rw [← Finset.sum_mul, ← Finset.mul_sum, prob_sum, mul_one]

end Expect

end Verif.Dropout
