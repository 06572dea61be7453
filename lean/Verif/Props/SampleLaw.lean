import Verif.Lemmas.SampleLaw
import Verif.Spec.SampleLaw
import Verif.Props.T5Decode
/-
C103: the probability with which sampling returns a sequence.
-/
namespace Verif.SampleLaw
open MeasureTheory ProbabilityTheory Set Verif.Sampling Spec
open SampleToken (Cfg Noise sampleRow sampleHot scaledLogits sampleAll argmax argmax_spec greedy_unique Temp)
open SampleToken.Spec (weight2 firstToken IsGreedy)
open scoped ENNReal

variable {V : Nat} [NeZero V]

theorem argmax_iff (x : Fin V → ℝ) (t : Fin V) : argmax x = t ↔ ∀ j, x j ≤ x t ∧ (j < t → x j < x t) := by
  constructor
  · rintro rfl j
    exact ⟨(argmax_spec x).1 j, (argmax_spec x).2 j⟩
  · intro h
    exact greedy_unique _ _ _ (argmax_spec x) ⟨fun j => (h j).1, fun j => (h j).2⟩

theorem measurable_choice (x : Fin V → ℝ) (t : Fin V) : MeasurableSet {g : Fin V → ℝ | argmax (fun i => x i + g i) = t} := by
  have e : {g : Fin V → ℝ | argmax (fun i => x i + g i) = t} =
      ⋂ j, ({g : Fin V → ℝ | x j + g j ≤ x t + g t} ∩ {g | j < t → x j + g j < x t + g t}) := by
    ext g
    simp only [mem_setOf_eq, mem_iInter, mem_inter_iff]
    exact argmax_iff _ _
  rw [e]
  refine MeasurableSet.iInter fun j => MeasurableSet.inter ?_ ?_
  · exact measurableSet_le (f := fun g : Fin V → ℝ => x j + g j) (g := fun g => x t + g t) (by fun_prop) (by fun_prop)
  · by_cases h : j < t
    · have : {g : Fin V → ℝ | j < t → x j + g j < x t + g t} = {g | x j + g j < x t + g t} := by ext g; simp [h]
      rw [this]
      exact measurableSet_lt (f := fun g : Fin V → ℝ => x j + g j) (g := fun g => x t + g t) (by fun_prop) (by fun_prop)
    · have : {g : Fin V → ℝ | j < t → x j + g j < x t + g t} = univ := by ext g; simp [h]
      rw [this]
      exact MeasurableSet.univ

theorem pi_choice (x : Fin V → ℝ) (t : Fin V) : Measure.pi (fun _ : Fin V => gumbel) {g | argmax (fun i => x i + g i) = t} =
    ENNReal.ofReal (Real.exp (x t) / ∑ j, Real.exp (x j)) := by
  obtain ⟨n, rfl⟩ : ∃ n, V = n + 1 := ⟨V - 1, by have := NeZero.pos V; omega⟩
  exact gumbel_max x t

section noise
variable {Ω : Type} [MeasurableSpace Ω] {P : Measure Ω} [IsProbabilityMeasure P] {noise : Ω → Noise V}

theorem law_array (h : GumbelNoise P noise) (k n q : Nat) : P.map (fun ω => noise ω k n q) = Measure.pi (fun _ : Fin V => gumbel) := by
  have h1 := (iIndepFun_iff_map_fun_eq_pi_map (fun i => (h.measurable k n q i).aemeasurable)).1 (h.entries k n q)
  rw [h1]
  congr 1
  funext i
  have : IsProbabilityMeasure (P.map fun ω => noise ω k n q i) := Measure.isProbabilityMeasure_map (h.measurable k n q i).aemeasurable
  apply eq_gumbel
  intro x
  rw [Measure.map_apply (h.measurable k n q i) measurableSet_Iic]
  exact h.cdf k n q i x

theorem measurable_array (h : GumbelNoise P noise) (k n q : Nat) : Measurable fun ω => noise ω k n q :=
  measurable_pi_lambda _ fun i => h.measurable k n q i

/-- The noise values with which a given token is drawn. -/
def drawSet (c : Cfg) (T : ℝ) (l : Fin V → ℝ) (a : Int) : Set (Fin V → ℝ) := {g | ((sampleRow c T g l).1.val : Int) = a}

theorem tokenProb_nonneg (c : Cfg) (T : ℝ) (hT : 1 / 10000 < T) (l : Fin V → ℝ) (a : Int) : 0 ≤ tokenProb c T l a := by
  unfold tokenProb
  refine Finset.sum_nonneg fun t _ => ?_
  split_ifs
  · exact div_nonneg (SampleToken.weight2_pos c T hT l t).le (Finset.sum_nonneg fun j _ => (SampleToken.weight2_pos c T hT l j).le)
  · exact le_rfl

omit [NeZero V] in
theorem tokenProb_val (c : Cfg) (T : ℝ) (l : Fin V → ℝ) (t : Fin V) :
    tokenProb c T l (t.val : Int) = weight2 c T l t / ∑ j, weight2 c T l j := by
  unfold tokenProb
  rw [Finset.sum_eq_single t]
  · rw [if_pos rfl]
  · intro j _ hj
    rw [if_neg]
    intro h
    exact hj (Fin.ext (by exact_mod_cast h))
  · intro h; exact absurd (Finset.mem_univ _) h

theorem drawSet_spec (c : Cfg) (T : ℝ) (hT : 1 / 10000 < T) (l : Fin V → ℝ) (a : Int) : MeasurableSet (drawSet c T l a) ∧
    Measure.pi (fun _ : Fin V => gumbel) (drawSet c T l a) = ENNReal.ofReal (tokenProb c T l a) := by
  by_cases h : ∃ t : Fin V, (t.val : Int) = a
  · obtain ⟨t, rfl⟩ := h
    have e : drawSet c T l (t.val : Int) = {g | argmax (fun i => scaledLogits c T l i + g i) = t} := by
      ext g
      simp only [drawSet, mem_setOf_eq, SampleToken.hot_eq c T hT, sampleHot]
      constructor
      · intro h; exact Fin.ext (by exact_mod_cast h)
      · intro h; rw [h]
    rw [e]
    refine ⟨measurable_choice _ _, ?_⟩
    rw [pi_choice]
    rw [tokenProb_val]
    simp only [SampleToken.exp_scaled c T hT]
  · have e : drawSet c T l a = ∅ := by
      ext g
      simp only [drawSet, mem_setOf_eq, mem_empty_iff_false, iff_false]
      exact fun h' => h ⟨_, h'⟩
    rw [e]
    refine ⟨MeasurableSet.empty, ?_⟩
    rw [measure_empty, tokenProb, Finset.sum_eq_zero, ENNReal.ofReal_zero]
    intro t _
    rw [if_neg fun h' => h ⟨t, h'⟩]

/-- **C103, one token**: a token is drawn with the probability proportional to its weight after temperature, top-k and top-p. -/
theorem C103_token (h : GumbelNoise P noise) (c : Cfg) (T : ℝ) (hT : 1 / 10000 < T) (l : Fin V → ℝ) (k n q : Nat) (t : Fin V) :
    P {ω | (sampleRow c T (noise ω k n q) l).1 = t} = ENNReal.ofReal (weight2 c T l t / ∑ j, weight2 c T l j) := by
  have e : {ω | (sampleRow c T (noise ω k n q) l).1 = t} = (fun ω => noise ω k n q) ⁻¹' drawSet c T l t.val := by
    ext ω
    simp only [drawSet, mem_setOf_eq, mem_preimage]
    constructor
    · intro h; rw [h]
    · intro h; exact Fin.ext (by exact_mod_cast h)
  have hd := drawSet_spec c T hT l t.val
  rw [e, ← Measure.map_apply (measurable_array h k n q) hd.1, law_array h, hd.2]
  rw [tokenProb_val]

end noise

/-- Which noise leads to which output. -/
theorem output_iff {S : Type} (c : Cfg) (hc : c.check = true) (T : ℝ) (d : Nat) (noise : Noise V) (f : Nat → S → Int → (Fin V → ℝ) × S)
    (eos : Int) (he : eos ≠ 0) (inps : List Inp) (cache : Nat → S) (width : Nat) (hw : ∀ r ∈ inps, r.toks.length ≤ width) (fuel : Nat)
    (hf : max 1 width ≤ fuel) (b : Nat) (r : Inp) (hb : inps[b]? = some r) (p : Nat) (hg : GoodRow r p) (t : Nat) (ht : t < d) (y : List Int) :
    (∃ rows lp, sampleAll c (.scalar T) d noise f eos fuel inps cache = some rows ∧ rows[b * d + t]? = some (y, lp)) ↔
      Possible r p eos y ∧ ∀ k ∈ drawn r p eos y, noise k (inps.length * d) (b * d + t) ∈
        drawSet c T (logitsAfter (f b) (cache b) r y k) (y.getD (r.initialIndex.getD 0 + k) 0) := by
  obtain ⟨hp, hip, him⟩ := hg
  obtain ⟨rows, out, lp, draw, h1, h2, h3, h4, h5⟩ := SampleToken.C92_generated c hc (.scalar T) d noise f eos he inps cache width hw fuel hf b r hb p
    hp _ rfl him hip t ht
  have hposs : Possible r p eos out := by
    have hbq : (expand d inps)[b * d + t]? = some r := by rw [expand_get d inps b t ht, hb]
    have hw' : ∀ r ∈ expand d inps, r.toks.length ≤ width := by
      intro r hr
      unfold expand at hr
      rw [List.mem_flatMap] at hr
      obtain ⟨a, ha, hr⟩ := hr
      rw [List.eq_of_mem_replicate hr]
      exact hw a ha
    obtain ⟨out', lp', g1, g2, -⟩ := C06_rows eos he (SampleToken.next c (.scalar T) d noise fun b => f (b / d)) (expand d inps)
      (0, fun b => cache (b / d)) width hw' fuel hf (b * d + t) r hbq p hp him
    unfold sampleAll at h1
    rw [if_pos hc] at h1
    simp only [Option.some.injEq] at h1
    rw [h1, h2] at g1
    simp only [Option.some.injEq, Prod.mk.injEq] at g1
    rw [← g1.1] at g2
    refine ⟨g2.length, g2.prompt, fun i j hi hij hei => ?_, fun j hj hm => g2.limit j hm hj⟩
    by_cases him' : i < maxDecodeLen r
    · have hex : ∃ k', p ≤ r.initialIndex.getD 0 + k' ∧ r.initialIndex.getD 0 + k' ≤ i ∧
          ((SampleToken.next c (.scalar T) d noise (fun b => f (b / d)) (stateAt eos (SampleToken.next c (.scalar T) d noise fun b => f (b / d))
            (initSt eos (expand d inps) (0, fun b => cache (b / d))) k')).2 (b * d + t)).1 = eos := by
        by_contra hno
        push Not at hno
        have e : r.initialIndex.getD 0 + (i - r.initialIndex.getD 0) = i := by omega
        have := g2.sampled (i - r.initialIndex.getD 0) (by omega) (by omega) fun k' hk' hpk' => hno k' hpk' (by omega)
        rw [e, hei] at this
        exact hno (i - r.initialIndex.getD 0) (by omega) (by omega) this.symm
      obtain ⟨k', a1, a2, a3⟩ := hex
      exact g2.after_eos k' j a1 (by omega) a3 (by omega)
    · rw [g2.limit i (by omega) hi] at hei
      exact absurd hei.symm he
  have hstep : ∀ k ∈ drawn r p eos out, noise k (inps.length * d) (b * d + t) ∈
        drawSet c T (logitsAfter (f b) (cache b) r out k) (out.getD (r.initialIndex.getD 0 + k) 0) := by
    intro k hk
    simp only [drawn, Finset.mem_filter, Finset.mem_range] at hk
    obtain ⟨a1, l, a2, a3⟩ := h4 k hk.2.1 (by omega) hk.2.2
    show ((sampleRow c T (noise k (inps.length * d) (b * d + t)) (logitsAfter (f b) (cache b) r out k)).1.val : Int) = _
    rw [a1]
    unfold logitsAfter
    rw [a2, Option.getD_some, a3]
    rfl
  constructor
  · rintro ⟨rows', lp', g1, g2⟩
    rw [h1] at g1
    simp only [Option.some.injEq] at g1
    rw [← g1, h2] at g2
    simp only [Option.some.injEq, Prod.mk.injEq] at g2
    rw [← g2.1]
    exact ⟨hposs, hstep⟩
  · rintro ⟨hy, hd⟩
    have hall : ∀ j, out.getD j 0 = y.getD j 0 := by
      intro j
      induction j using Nat.strong_induction_on with
      | _ j ih =>
        by_cases hjp : j < p
        · rw [hposs.prompt j hjp, hy.prompt j hjp]
        · by_cases hjm : maxDecodeLen r ≤ j
          · rw [hposs.limit j (by omega) hjm, hy.limit j (by omega) hjm]
          · by_cases hend : ∃ i, p ≤ i ∧ i < j ∧ out.getD i 0 = eos
            · obtain ⟨i, b1, b2, b3⟩ := hend
              rw [hposs.ended i j b1 b2 b3, hy.ended i j b1 b2 (by rw [← ih i b2]; exact b3)]
            · push Not at hend
              obtain ⟨k, hk⟩ : ∃ k, j = r.initialIndex.getD 0 + k := ⟨j - r.initialIndex.getD 0, by omega⟩
              have hm1 : k ∈ drawn r p eos out := by
                simp only [drawn, Finset.mem_filter, Finset.mem_range]
                exact ⟨by omega, by omega, fun k' hk' hpk' => hend _ hpk' (by omega)⟩
              have hm2 : k ∈ drawn r p eos y := by
                simp only [drawn, Finset.mem_filter, Finset.mem_range]
                exact ⟨by omega, by omega, fun k' hk' hpk' => by rw [← ih _ (by omega)]; exact hend _ hpk' (by omega)⟩
              have e1 : ((sampleRow c T (noise k (inps.length * d) (b * d + t)) (logitsAfter (f b) (cache b) r out k)).1.val : Int) = _ := hstep k hm1
              have e2 : ((sampleRow c T (noise k (inps.length * d) (b * d + t)) (logitsAfter (f b) (cache b) r y k)).1.val : Int) = _ := hd k hm2
              have e3 : logitsAfter (f b) (cache b) r out k = logitsAfter (f b) (cache b) r y k := by
                unfold logitsAfter
                have : (List.range k).map (fun k' => out.getD (r.initialIndex.getD 0 + k') 0) =
                    (List.range k).map (fun k' => y.getD (r.initialIndex.getD 0 + k') 0) := by
                  apply List.map_congr_left
                  intro k' hk'
                  rw [List.mem_range] at hk'
                  exact ih _ (by omega)
                rw [this]
              rw [hk, ← e1, ← e2, e3]
    have : out = y := by
      apply List.ext_getElem?
      intro j
      have hl : out.length = y.length := hposs.length.trans hy.length.symm
      by_cases hj : j < out.length
      · have := hall j
        rw [getD_some hj, getD_some (hl ▸ hj), this]
      · rw [List.getElem?_eq_none (by omega), List.getElem?_eq_none (by omega)]
    rw [← this]
    exact ⟨rows, lp, h1, h2⟩

section law
variable {Ω : Type} [MeasurableSpace Ω] {P : Measure Ω} [IsProbabilityMeasure P] {noise : Ω → Noise V}
variable {S : Type} (c : Cfg) (T : ℝ) (d : Nat) (f : Nat → S → Int → (Fin V → ℝ) × S) (eos : Int) (inps : List Inp) (cache : Nat → S) (fuel : Nat)

/-- **C103, jointly**: the decodes of all examples are independent, and each output is returned with the product of the probabilities of its
tokens. -/
theorem C103_joint (h : GumbelNoise P noise) (hc : c.check = true) (hT : 1 / 10000 < T) (he : eos ≠ 0) (width : Nat)
    (hw : ∀ r ∈ inps, r.toks.length ≤ width) (hf : max 1 width ≤ fuel) (r : Nat → Inp) (p : Nat → Nat) (R : Finset (Nat × Fin d))
    (hR : ∀ z ∈ R, inps[z.1]? = some (r z.1) ∧ GoodRow (r z.1) (p z.1)) (y : Nat × Fin d → List Int) :
    P {ω | ∀ z ∈ R, Returns c T d f eos inps cache fuel (noise ω) z (y z)} =
      ∏ z ∈ R, ENNReal.ofReal (seqProb c T (f z.1) (cache z.1) eos (r z.1) (p z.1) (y z)) := by
  classical
  have hiff : ∀ ω, ∀ z ∈ R, Returns c T d f eos inps cache fuel (noise ω) z (y z) ↔
      Possible (r z.1) (p z.1) eos (y z) ∧ ∀ k ∈ drawn (r z.1) (p z.1) eos (y z), noise ω k (inps.length * d) (z.1 * d + z.2.val) ∈
        drawSet c T (logitsAfter (f z.1) (cache z.1) (r z.1) (y z) k) ((y z).getD ((r z.1).initialIndex.getD 0 + k) 0) := fun ω z hz =>
    output_iff c hc T d (noise ω) f eos he inps cache width hw fuel hf z.1 (r z.1) (hR z hz).1 (p z.1) (hR z hz).2 z.2.val z.2.isLt (y z)
  by_cases hposs : ∀ z ∈ R, Possible (r z.1) (p z.1) eos (y z)
  · let ι := (_ : Nat × Fin d) × Nat
    let g : ι → Nat × Nat × Nat := fun i => (i.2, inps.length * d, i.1.1 * d + i.1.2.val)
    have hg : Function.Injective g := by
      rintro ⟨⟨b, t⟩, k⟩ ⟨⟨b', t'⟩, k'⟩ hgg
      simp only [g, Prod.mk.injEq, true_and] at hgg
      obtain ⟨rfl, h2⟩ := hgg
      have hd : 0 < d := t.pos
      have e1 : (b * d + t.val) / d = b := by rw [Nat.mul_comm, Nat.mul_add_div hd, Nat.div_eq_of_lt t.isLt, Nat.add_zero]
      have e2 : (b' * d + t'.val) / d = b' := by rw [Nat.mul_comm, Nat.mul_add_div hd, Nat.div_eq_of_lt t'.isLt, Nat.add_zero]
      have hbb : b = b' := by rw [← e1, ← e2, h2]
      subst hbb
      have : t = t' := Fin.ext (by omega)
      rw [this]
    have hind := h.arrays.precomp hg
    let I : Finset ι := R.sigma fun z => drawn (r z.1) (p z.1) eos (y z)
    let A : ι → Set (Fin V → ℝ) := fun i =>
      drawSet c T (logitsAfter (f i.1.1) (cache i.1.1) (r i.1.1) (y i.1) i.2) ((y i.1).getD ((r i.1.1).initialIndex.getD 0 + i.2) 0)
    have e : {ω | ∀ z ∈ R, Returns c T d f eos inps cache fuel (noise ω) z (y z)} =
        ⋂ i ∈ I, (fun ω => noise ω (g i).1 (g i).2.1 (g i).2.2) ⁻¹' A i := by
      ext ω
      simp only [mem_setOf_eq, mem_iInter, mem_preimage]
      constructor
      · intro hω i hi
        rw [Finset.mem_sigma] at hi
        exact ((hiff ω i.1 hi.1).1 (hω i.1 hi.1)).2 i.2 hi.2
      · intro hω z hz
        exact (hiff ω z hz).2 ⟨hposs z hz, fun k hk => hω ⟨z, k⟩ (Finset.mem_sigma.2 ⟨hz, hk⟩)⟩
    have hm : ∀ i ∈ I, MeasurableSet (A i) := fun i _ => (drawSet_spec c T hT _ _).1
    have hprod := hind.measure_inter_preimage_eq_mul I hm
    rw [e]
    refine hprod.trans ?_
    have hone : ∀ i ∈ I, P ((fun ω => noise ω (g i).1 (g i).2.1 (g i).2.2) ⁻¹' A i) =
        ENNReal.ofReal (tokenProb c T (logitsAfter (f i.1.1) (cache i.1.1) (r i.1.1) (y i.1) i.2) ((y i.1).getD ((r i.1.1).initialIndex.getD 0 + i.2) 0)) := by
      intro i hi
      rw [← Measure.map_apply (measurable_array h _ _ _) (hm i hi), law_array h]
      exact (drawSet_spec c T hT _ _).2
    rw [Finset.prod_congr rfl hone, Finset.prod_sigma]
    apply Finset.prod_congr rfl
    intro z hz
    unfold seqProb
    rw [if_pos (hposs z hz), ENNReal.ofReal_prod_of_nonneg fun k _ => tokenProb_nonneg c T hT _ _]
  · push Not at hposs
    obtain ⟨z, hz, hno⟩ := hposs
    have e : {ω | ∀ z ∈ R, Returns c T d f eos inps cache fuel (noise ω) z (y z)} = ∅ := by
      ext ω
      simp only [mem_setOf_eq, mem_empty_iff_false, iff_false]
      intro hω
      exact hno ((hiff ω z hz).1 (hω z hz)).1
    rw [e, measure_empty, eq_comm]
    apply Finset.prod_eq_zero hz
    unfold seqProb
    rw [if_neg hno, ENNReal.ofReal_zero]

/-- **C103, one output**: a decode of an example is the sequence `y` with the product of the probabilities of its tokens. -/
theorem C103_sequence (h : GumbelNoise P noise) (hc : c.check = true) (hT : 1 / 10000 < T) (he : eos ≠ 0) (width : Nat)
    (hw : ∀ r ∈ inps, r.toks.length ≤ width) (hf : max 1 width ≤ fuel) (b : Nat) (t : Fin d) (r : Inp) (hb : inps[b]? = some r) (p : Nat)
    (hg : GoodRow r p) (y : List Int) :
    P {ω | Returns c T d f eos inps cache fuel (noise ω) (b, t) y} = ENNReal.ofReal (seqProb c T (f b) (cache b) eos r p y) := by
  have := C103_joint c T d f eos inps cache fuel h hc hT he width hw hf (fun _ => r) (fun _ => p) {(b, t)}
    (fun z hz => by rw [Finset.mem_singleton] at hz; rw [hz]; exact ⟨hb, hg⟩) (fun _ => y)
  simpa using this

/-- **C103, several tries**: among `num_decodes` decodes, `y` is found with the probability that independent tries find it. -/
theorem C103_found (h : GumbelNoise P noise) (hc : c.check = true) (hT : 1 / 10000 < T) (he : eos ≠ 0) (width : Nat)
    (hw : ∀ r ∈ inps, r.toks.length ≤ width) (hf : max 1 width ≤ fuel) (b : Nat) (r : Inp) (hb : inps[b]? = some r) (p : Nat)
    (hg : GoodRow r p) (y : List Int) :
    P {ω | ∃ t, Returns c T d f eos inps cache fuel (noise ω) (b, t) y} =
      ENNReal.ofReal (1 - (1 - seqProb c T (f b) (cache b) eos r p y) ^ d) := by
  classical
  let E : Fin d → Set Ω := fun t => {ω | Returns c T d f eos inps cache fuel (noise ω) (b, t) y}
  have hE : ∀ t, E t = {ω | Possible r p eos y ∧ ∀ k ∈ drawn r p eos y, noise ω k (inps.length * d) (b * d + t.val) ∈
        drawSet c T (logitsAfter (f b) (cache b) r y k) (y.getD (r.initialIndex.getD 0 + k) 0)} := by
    intro t
    ext ω
    exact output_iff c hc T d (noise ω) f eos he inps cache width hw fuel hf b r hb p hg t.val t.isLt y
  have hmeas : ∀ t, MeasurableSet (E t) := by
    intro t
    rw [hE]
    by_cases hp : Possible r p eos y
    · have : {ω | Possible r p eos y ∧ ∀ k ∈ drawn r p eos y, noise ω k (inps.length * d) (b * d + t.val) ∈
          drawSet c T (logitsAfter (f b) (cache b) r y k) (y.getD (r.initialIndex.getD 0 + k) 0)} =
          ⋂ k ∈ drawn r p eos y, (fun ω => noise ω k (inps.length * d) (b * d + t.val)) ⁻¹'
            drawSet c T (logitsAfter (f b) (cache b) r y k) (y.getD (r.initialIndex.getD 0 + k) 0) := by
        ext ω; simp [hp]
      rw [this]
      exact Finset.measurableSet_biInter _ fun k _ => measurable_array h _ _ _ (drawSet_spec c T hT _ _).1
    · have : {ω | Possible r p eos y ∧ ∀ k ∈ drawn r p eos y, noise ω k (inps.length * d) (b * d + t.val) ∈
          drawSet c T (logitsAfter (f b) (cache b) r y k) (y.getD (r.initialIndex.getD 0 + k) 0)} = ∅ := by
        ext ω; simp [hp]
      rw [this]
      exact MeasurableSet.empty
  have hind : iIndepSet E P := by
    rw [iIndepSet_iff_meas_biInter hmeas]
    intro s
    have hj := C103_joint c T d f eos inps cache fuel h hc hT he width hw hf (fun _ => r) (fun _ => p) (s.image fun t => (b, t))
      (fun z hz => by obtain ⟨t, _, rfl⟩ := Finset.mem_image.1 hz; exact ⟨hb, hg⟩) (fun _ => y)
    rw [Finset.prod_image (by intro t _ t' _ htt; simpa using htt)] at hj
    have e : (⋂ t ∈ s, E t) = {ω | ∀ z ∈ s.image (fun t => (b, t)), Returns c T d f eos inps cache fuel (noise ω) z y} := by
      ext ω; simp [E]
    rw [e, hj]
    apply Finset.prod_congr rfl
    intro t _
    exact (C103_sequence c T d f eos inps cache fuel h hc hT he width hw hf b t r hb p hg y).symm
  have hq : ∀ t, P (E t) = ENNReal.ofReal (seqProb c T (f b) (cache b) eos r p y) := fun t =>
    C103_sequence c T d f eos inps cache fuel h hc hT he width hw hf b t r hb p hg y
  have h0 : 0 ≤ seqProb c T (f b) (cache b) eos r p y := by
    unfold seqProb
    split_ifs
    · exact Finset.prod_nonneg fun k _ => tokenProb_nonneg c T hT _ _
    · exact le_rfl
  have hcompl : P (⋂ t ∈ Finset.univ, (E t)ᶜ) = ∏ t : Fin d, P (E t)ᶜ := by
    have := (iIndep_iff _ _).1 hind Finset.univ (f := fun t => (E t)ᶜ) fun t _ =>
      MeasurableSet.compl (MeasurableSpace.measurableSet_generateFrom (mem_singleton _))
    exact this
  have hun : {ω | ∃ t, Returns c T d f eos inps cache fuel (noise ω) (b, t) y} = (⋂ t ∈ Finset.univ, (E t)ᶜ)ᶜ := by
    ext ω; simp [E]
  rw [hun, prob_compl_eq_one_sub (Finset.measurableSet_biInter _ fun t _ => (hmeas t).compl), hcompl]
  by_cases hd : d = 0
  · subst hd
    simp
  have hle : seqProb c T (f b) (cache b) eos r p y ≤ 1 := by
    have := prob_le_one (μ := P) (s := E ⟨0, by omega⟩)
    rw [hq, ← ENNReal.ofReal_one, ENNReal.ofReal_le_ofReal_iff one_pos.le] at this
    exact this
  have e : ∀ t, P (E t)ᶜ = ENNReal.ofReal (1 - seqProb c T (f b) (cache b) eos r p y) := by
    intro t
    rw [prob_compl_eq_one_sub (hmeas t), hq, ← ENNReal.ofReal_one, ENNReal.ofReal_sub _ h0]
  simp only [e]
  rw [Finset.prod_const, Finset.card_univ, Fintype.card_fin, ← ENNReal.ofReal_pow (by linarith), ← ENNReal.ofReal_one,
    ← ENNReal.ofReal_sub _ (pow_nonneg (by linarith) _)]

/-- **C103, log-probabilities**: with `rescale_log_probs` the log-probability returned with a sequence is the logarithm of the probability
with which this sequence was to be returned; without, it is the logarithm of the probability that the model itself gives to it. -/
theorem C103_log_prob (noise : Noise V) (hc : c.check = true) (hT : 1 / 10000 < T) (he : eos ≠ 0) (width : Nat)
    (hw : ∀ r ∈ inps, r.toks.length ≤ width) (hf : max 1 width ≤ fuel) (b : Nat) (t : Fin d) (r : Inp) (hb : inps[b]? = some r) (p : Nat)
    (hg : GoodRow r p) (rows : List (List Int × ℝ)) (y : List Int) (lp : ℝ) (h1 : sampleAll c (.scalar T) d noise f eos fuel inps cache = some rows)
    (h2 : rows[b * d + t.val]? = some (y, lp)) :
    Real.exp lp = if c.rescale then seqProb c T (f b) (cache b) eos r p y else seqProb plain 1 (f b) (cache b) eos r p y := by
  classical
  have hposs := ((output_iff c hc T d noise f eos he inps cache width hw fuel hf b r hb p hg t.val t.isLt y).1 ⟨rows, lp, h1, h2⟩).1
  obtain ⟨hp, hip, him⟩ := hg
  obtain ⟨rows', out, lp', draw, g1, g2, g3, g4, g5⟩ := SampleToken.C92_generated c hc (.scalar T) d noise f eos he inps cache width hw fuel hf b r hb p
    hp _ rfl him hip t.val t.isLt
  rw [h1] at g1
  simp only [Option.some.injEq] at g1
  rw [← g1, h2] at g2
  simp only [Option.some.injEq, Prod.mk.injEq] at g2
  obtain ⟨rfl, rfl⟩ := g2
  have hlp : lp = ∑ k ∈ drawn r p eos y, (draw k).2 := by
    rw [g5]
    unfold drawn
    rw [Finset.sum_filter]
  rw [hlp, Real.exp_sum]
  have hk : ∀ k ∈ drawn r p eos y, y.getD (r.initialIndex.getD 0 + k) 0 = ((draw k).1.val : Int) ∧
      draw k = sampleRow c T (noise k (inps.length * d) (b * d + t.val)) (logitsAfter (f b) (cache b) r y k) := by
    intro k hk
    simp only [drawn, Finset.mem_filter, Finset.mem_range] at hk
    obtain ⟨a1, l, a2, a3⟩ := g4 k hk.2.1 (by omega) hk.2.2
    refine ⟨a1, ?_⟩
    unfold logitsAfter
    rw [a2, Option.getD_some]
    exact a3
  by_cases hr : c.rescale = true
  · rw [if_pos hr, seqProb, if_pos hposs]
    apply Finset.prod_congr rfl
    intro k hkd
    obtain ⟨a1, a2⟩ := hk k hkd
    have hs := SampleToken.C92_score c T hT (noise k (inps.length * d) (b * d + t.val)) (logitsAfter (f b) (cache b) r y k)
    rw [if_pos hr, ← a2] at hs
    rw [a1, tokenProb_val, hs, Real.exp_log]
    exact div_pos (SampleToken.weight2_pos c T hT _ _) (Finset.sum_pos (fun j _ => SampleToken.weight2_pos c T hT _ _) ⟨0, Finset.mem_univ _⟩)
  · rw [if_neg hr, seqProb, if_pos hposs]
    apply Finset.prod_congr rfl
    intro k hkd
    obtain ⟨a1, a2⟩ := hk k hkd
    have hs := SampleToken.C92_score c T hT (noise k (inps.length * d) (b * d + t.val)) (logitsAfter (f b) (cache b) r y k)
    rw [if_neg hr, ← a2] at hs
    rw [a1, tokenProb_val, hs, Real.exp_log]
    · have hw2 : ∀ (l : Fin V → ℝ) j, weight2 plain 1 l j = Real.exp (l j) := by
        intro l j
        have h1 : ¬ SampleToken.Spec.ToppOn plain := by
          rintro (h | h) <;> simp [plain] at h
        have h2 : ¬ SampleToken.Spec.TopkOn plain := by simp [SampleToken.Spec.TopkOn, plain]
        rw [weight2, if_neg (fun h => h1 h.1), SampleToken.Spec.weight1, if_neg (fun h => h2 h.1), div_one]
      simp only [hw2]
    · exact div_pos (Real.exp_pos _) (Finset.sum_pos (fun j _ => Real.exp_pos _) ⟨0, Finset.mem_univ _⟩)

end law

omit [NeZero V] in
theorem plain_weight (c : Cfg) (hk : c.topk = 0) (hp : c.topp = 0) (hpt : c.toppTraced = false) (l : Fin V → ℝ) (j : Fin V) :
    weight2 c 1 l j = Real.exp (l j) := by
  have h1 : ¬ SampleToken.Spec.ToppOn c := by
    rintro (h | h)
    · exact h hp
    · rw [hpt] at h; cases h
  have h2 : ¬ SampleToken.Spec.TopkOn c := by simp [SampleToken.Spec.TopkOn, hk]
  rw [weight2, if_neg (fun h => h1 h.1), SampleToken.Spec.weight1, if_neg (fun h => h2 h.1), div_one]

/-- The probability of a sequence under the model's own distribution is the exponential of its score. -/
theorem seqProb_score {S : Type} (c : Cfg) (hk0 : c.topk = 0) (hp : c.topp = 0) (hpt : c.toppTraced = false) (f : S → Int → (Fin V → ℝ) × S)
    (cache : S) (eos : Int) (he : eos ≠ 0) (r : Inp) (hr : r.initialIndex = none) (p : Nat) (hpm : p ≤ maxDecodeLen r) (n : Nat) (hn : r.toks.length = n) (y : List Int)
    (hposs : Possible r p eos y) (hnp : Score.Spec.NoPadding p (maxDecodeLen r) eos y)
    (hvoc : ∀ j, p ≤ j → 0 ≤ y.getD j 0 ∧ y.getD j 0 < V) (logits : Fin n → Fin V → ℝ)
    (hl : ∀ k ∈ drawn r p eos y, ∀ hkn : k < n, logitsAfter f cache r y k = logits ⟨k, hkn⟩) :
    seqProb c 1 f cache eos r p y = Real.exp (Score.scoreRow logits (Score.Spec.asRow n y) (Score.Spec.weightsFrom n p y)) := by
  classical
  have hmn : maxDecodeLen r ≤ n := hn ▸ maxLen_le r
  have hi0 : r.initialIndex.getD 0 = 0 := by rw [hr]; rfl
  have hdr : ∀ k, k ∈ drawn r p eos y ↔ p ≤ k ∧ k < n ∧ y.getD k 0 ≠ 0 := by
    intro k
    simp only [drawn, Finset.mem_filter, Finset.mem_range, hi0, Nat.sub_zero, Nat.zero_add]
    constructor
    · rintro ⟨h1, h2, h3⟩
      exact ⟨h2, by omega, hnp k h2 h1 fun i hi hik => h3 i hik hi⟩
    · rintro ⟨h1, h2, h3⟩
      refine ⟨?_, h1, fun k' hk' hpk' hek => h3 (hposs.ended k' k hpk' hk' hek)⟩
      by_contra hc
      exact h3 (hposs.limit k h1 (by omega))
  rw [seqProb, if_pos hposs]
  unfold Score.scoreRow
  rw [Real.exp_sum]
  let g : Nat → ℝ := fun k => if hkn : k < n then
    Real.exp (-(Loss.crossEntropy (logits ⟨k, hkn⟩) (Score.oneHot (Score.Spec.asRow n y ⟨k, hkn⟩)) 0).1 * Score.Spec.weightsFrom n p y ⟨k, hkn⟩) else 1
  have e1 : ∏ i : Fin n, Real.exp (-(Loss.crossEntropy (logits i) (Score.oneHot (Score.Spec.asRow n y i)) 0).1 * Score.Spec.weightsFrom n p y i) =
      ∏ k ∈ Finset.range n, g k := by
    rw [← Fin.prod_univ_eq_prod_range]
    exact Finset.prod_congr rfl fun j _ => by simp [g]
  rw [e1]
  have e2 : ∏ k ∈ drawn r p eos y, g k = ∏ k ∈ Finset.range n, g k := by
    apply Finset.prod_subset
    · intro k hk
      rw [Finset.mem_range]
      exact ((hdr k).1 hk).2.1
    · intro k hk hk'
      rw [Finset.mem_range] at hk
      rw [hdr] at hk'
      simp only [g]
      rw [dif_pos hk]
      have : Score.Spec.weightsFrom n p y ⟨k, hk⟩ = 0 := by
        unfold Score.Spec.weightsFrom
        rw [if_neg]
        rintro ⟨h1, h2⟩
        exact hk' ⟨h1, hk, h2⟩
      rw [this, mul_zero, Real.exp_zero]
  rw [← e2]
  apply Finset.prod_congr rfl
  intro k hk
  obtain ⟨h1, h2, h3⟩ := (hdr k).1 hk
  obtain ⟨t, ht⟩ : ∃ t : Fin V, y.getD k 0 = (t.val : Int) := by
    obtain ⟨a, b⟩ := hvoc k h1
    exact ⟨⟨(y.getD k 0).toNat, by omega⟩, by simp only; omega⟩
  have hw : Score.Spec.weightsFrom n p y ⟨k, h2⟩ = 1 := by
    unfold Score.Spec.weightsFrom
    rw [if_pos ⟨h1, h3⟩]
  have ha : Score.Spec.asRow n y ⟨k, h2⟩ = (t.val : Int) := ht
  simp only [g]
  rw [dif_pos h2, hw, mul_one, ha, Score.score_term, SampleToken.logSoftmax_eq,
    Real.exp_log (div_pos (Real.exp_pos _) (Finset.sum_pos (fun j _ => Real.exp_pos _) ⟨t, Finset.mem_univ _⟩)), hi0, Nat.zero_add, ht, tokenProb_val,
    hl k hk h2]
  simp only [plain_weight c hk0 hp hpt]

section t5
open Transformer Transformer.Spec T5Decode Masks
variable {Ω : Type} [MeasurableSpace Ω] {P : Measure Ω} [IsProbabilityMeasure P]

/-- **C103, the T5 model**: with temperature 1, `topk = 0` and `topp = 0` every decode of an example is a draw from the model's
distribution: a sequence is returned with the exponential of its score, the score being that of the whole-sequence forward pass with which the
model is trained and scored. -/
theorem C103_t5 {d h e ff : Nat} {ex : ℝ → ℝ} {lg : ℕ → ℝ} {θ B : ℝ} {net : Transformer.Net d h e ff V} (hex : Underflows ex θ) (hθ : 0 < θ) (ht : Tame net θ B)
    {noise : Ω → Noise V} (hno : GumbelNoise P noise) (c : Cfg) (hk : c.topk = 0) (hp0 : c.topp = 0) (hpt : c.toppTraced = false)
    {m n : Nat} (enc : Nat → Masks.Row m) (numDecodes : Nat) (eos : Int) (he : eos ≠ 0) (prompts : List (Masks.Row n × Option Nat)) (fuel : Nat)
    (hf : max 1 n ≤ fuel) (b : Nat) (t : Fin numDecodes) (r : Masks.Row n × Option Nat) (hb : prompts[b]? = some r) (p : Nat)
    (hg : GoodRow ⟨List.ofFn r.1, none, r.2⟩ p) (hpos : ∀ j : Fin n, 1 ≤ j.val → j.val ≤ p → r.1 j > 0) (y : List Int)
    (hy : Possible ⟨List.ofFn r.1, none, r.2⟩ p eos y) (hnp : Score.Spec.NoPadding p (maxDecodeLen ⟨List.ofFn r.1, none, r.2⟩) eos y)
    (hvoc : ∀ j, p ≤ j → 0 ≤ y.getD j 0 ∧ y.getD j 0 < V) :
    ∃ logits, apply ex lg net ⟨enc b, Score.Spec.shifted n 0 y, Score.Spec.asRow n y, none, none⟩ = some logits ∧
      P {ω | Returns c 1 numDecodes (fun b => step ex lg net (enc b) (encoder ex lg net (enc b) (makeEncoderMask (enc b) none))) eos
          (prompts.map fun r => ⟨List.ofFn r.1, none, r.2⟩) (fun _ => emptyCaches net n) fuel (noise ω) (b, t) y} =
        ENNReal.ofReal (Real.exp (Score.scoreRow logits (Score.Spec.asRow n y) (Score.Spec.weightsFrom n p y))) := by
  have hlen : (List.ofFn r.1).length = n := List.length_ofFn
  have hpm := le_maxLen ⟨List.ofFn r.1, none, r.2⟩ hg.padded
  have hmn : maxDecodeLen ⟨List.ofFn r.1, none, r.2⟩ ≤ n := by
    have := maxLen_le ⟨List.ofFn r.1, none, r.2⟩
    rw [hlen] at this
    exact this
  obtain ⟨A, hA, -⟩ := encMask (enc b) none
  obtain ⟨logits, outs, h1, h2, h3⟩ := C94_decode (lg := lg) hex hθ ht
    (⟨enc b, Score.Spec.shifted n 0 y, Score.Spec.asRow n y, none, none⟩ : Input n m) rfl rfl n le_rfl
  refine ⟨logits, h1, ?_⟩
  simp only [predict, hA, Option.map_some, Option.some.injEq] at h2
  rw [C103_sequence c 1 numDecodes _ eos _ _ fuel hno (by simp [SampleToken.Cfg.check, hk]) (by norm_num) he n
    (by intro x hx; obtain ⟨z, _, rfl⟩ := List.mem_map.1 hx; simp) hf b t ⟨List.ofFn r.1, none, r.2⟩ (by rw [List.getElem?_map, hb]; rfl) p hg y]
  rw [seqProb_score c hk hp0 hpt _ _ eos he _ rfl p hpm n hlen y hy hnp hvoc logits]
  intro k hkd hkn
  simp only [drawn, Finset.mem_filter, Finset.mem_range, Option.getD_none, Nat.zero_add, Nat.sub_zero] at hkd
  have hpos' : ∀ j : Fin n, j ≤ ⟨k, hkn⟩ → Score.Spec.asRow n y j > 0 := by
    intro j hj
    have hjk : j.val ≤ k := hj
    show y.getD j.val 0 > 0
    by_cases hjp : j.val < p
    · rw [hy.prompt _ hjp]
      show (List.ofFn r.1).getD (j.val + 1) 0 > 0
      have hlt := hg.padded.lt
      simp only [hlen] at hlt
      rw [Score.getD_ofFn r.1 ⟨j.val + 1, by omega⟩]
      exact hpos _ (by simp) (by simp only; omega)
    · have hne := hnp j.val (by omega) (by omega) fun i hi hij => hkd.2.2 i (by omega) hi
      have := (hvoc j.val (by omega)).1
      omega
  have h4 := h3 ⟨k, hkn⟩ hpos'
  rw [← h2, Score.feed_take] at h4
  have e : (List.ofFn (Score.Spec.shifted n 0 y)).take (k + 1) = (0 : Int) :: (List.range k).map (fun k' => y.getD (0 + k') 0) := by
    apply List.ext_getElem?
    intro j
    by_cases hj : j < k + 1
    · rw [List.getElem?_take_of_lt hj, List.getElem?_ofFn, dif_pos (by omega)]
      cases j with
      | zero => simp [Score.Spec.shifted]
      | succ j =>
        rw [List.getElem?_cons_succ, List.getElem?_map, List.getElem?_range (by omega), Option.map_some]
        simp [Score.Spec.shifted]
    · rw [List.getElem?_eq_none (by rw [List.length_take]; omega),
        List.getElem?_eq_none (by rw [List.length_cons, List.length_map, List.length_range]; omega)]
  simp only [e] at h4
  unfold logitsAfter
  simp only [firstToken, Option.getD_none, hA]
  rw [h4, Option.getD_some]

end t5

section examples

omit [NeZero V] in
/-- There are such random numbers. -/
theorem noise_exists : ∃ P : Measure (Nat × Nat × Nat → Fin V → ℝ), IsProbabilityMeasure P ∧ GumbelNoise P fun ω k n q => ω (k, n, q) := by
  let μ : Nat × Nat × Nat → Measure (Fin V → ℝ) := fun _ => Measure.pi fun _ => gumbel
  have hmap : ∀ a, (Measure.infinitePi μ).map (fun ω => ω a) = Measure.pi fun _ => gumbel := fun a => Measure.infinitePi_map_eval μ a
  have hone : ∀ a i, (Measure.infinitePi μ).map (fun ω => ω a i) = gumbel := by
    intro a i
    have e : (fun ω : Nat × Nat × Nat → Fin V → ℝ => ω a i) = (fun g => g i) ∘ fun ω => ω a := rfl
    rw [e, ← Measure.map_map (by fun_prop) (by fun_prop), hmap]
    exact (measurePreserving_eval (fun _ : Fin V => gumbel) i).map_eq
  refine ⟨Measure.infinitePi μ, inferInstance, fun k n q i => by fun_prop, fun k n q i x => ?_, fun k n q => ?_, ?_⟩
  · rw [← gumbel_Iic, ← hone (k, n, q) i, Measure.map_apply (by fun_prop) measurableSet_Iic]
    rfl
  · rw [iIndepFun_iff_map_fun_eq_pi_map (fun i => Measurable.aemeasurable (by fun_prop))]
    have e : (fun i => (Measure.infinitePi μ).map fun ω : Nat × Nat × Nat → Fin V → ℝ => ω (k, n, q) i) = fun _ => gumbel := funext (hone (k, n, q))
    rw [e]
    exact hmap (k, n, q)
  · exact iIndepFun_infinitePi (P := μ) (X := fun _ ω => ω) (fun _ => measurable_id)

/-- A model that does not look at its input, and a row without prompt. -/
noncomputable def coin : Unit → Int → (Fin 2 → ℝ) × Unit := fun _ _ => (![0, Real.log 3], ())

theorem goodRow_demo : GoodRow ⟨[0, 0], none, none⟩ 0 := by
  refine ⟨⟨by decide, fun j h1 h2 => by omega, fun j hj => ?_⟩, le_rfl, by decide⟩
  rcases j with _ | _ | j
  · omega
  · rfl
  · simp [List.getD]

/-- A coin that shows the end marker with probability 3/4 ends the sequence at once with that probability. -/
example {Ω : Type} [MeasurableSpace Ω] {P : Measure Ω} [IsProbabilityMeasure P] {noise : Ω → Noise 2} (h : GumbelNoise P noise) (t : Fin 5) :
    P {ω | Returns plain 1 5 (fun _ => coin) 1 [⟨[0, 0], none, none⟩] (fun _ => ()) 2 (noise ω) (0, t) [1, 0]} = ENNReal.ofReal (3 / 4) := by
  rw [C103_sequence plain 1 5 (fun _ => coin) 1 [⟨[0, 0], none, none⟩] (fun _ => ()) 2 h (by simp [SampleToken.Cfg.check, plain]) (by norm_num) (by norm_num) 2
    (by simp) (by norm_num) 0 t ⟨[0, 0], none, none⟩ rfl 0 goodRow_demo [1, 0]]
  have hposs : Possible ⟨[0, 0], none, none⟩ 0 1 [1, 0] := by
    refine ⟨rfl, fun j hj => by omega, fun i j _ hij hi => ?_, fun j _ hj => ?_⟩
    · rcases j with _ | _ | j
      · omega
      · rfl
      · simp [List.getD]
    · have : maxDecodeLen ⟨[0, 0], none, none⟩ = 2 := rfl
      rw [this] at hj
      rcases j with _ | _ | j
      · omega
      · omega
      · simp [List.getD]
  have hdr : drawn ⟨[0, 0], none, none⟩ 0 1 [1, 0] = {0} := by
    ext k
    have : maxDecodeLen ⟨[0, 0], none, none⟩ = 2 := rfl
    simp only [drawn, this, Finset.mem_filter, Finset.mem_range, Finset.mem_singleton, Option.getD_none]
    constructor
    · rintro ⟨h1, _, h3⟩
      by_contra hc
      exact h3 0 (by omega) (by omega) rfl
    · rintro rfl
      exact ⟨by omega, by omega, fun k' hk' => by omega⟩
  rw [seqProb, if_pos hposs, hdr, Finset.prod_singleton]
  congr 1
  have e : tokenProb plain 1 (logitsAfter coin () ⟨[0, 0], none, none⟩ [1, 0] 0) (((1 : Fin 2).val : Nat) : Int) = 3 / 4 := by
    rw [tokenProb_val]
    simp only [plain_weight plain rfl rfl rfl, Fin.sum_univ_two]
    simp [logitsAfter, KVCache.feed, coin, Real.exp_log]
    norm_num
  exact e

/-- The hypotheses of `C103_t5` are met by the small network: three decodes, two positions, the sequence that ends at once. -/
example {Ω : Type} [MeasurableSpace Ω] {P : Measure Ω} [IsProbabilityMeasure P] {noise : Ω → Noise 2} (hno : GumbelNoise P noise) (lg : ℕ → ℝ) (t : Fin 3) :
    ∃ logits, Transformer.apply Transformer.flushed lg Transformer.demoNet
        ⟨![1], Score.Spec.shifted 2 0 [1, 0], Score.Spec.asRow 2 [1, 0], none, none⟩ = some logits ∧
      P {ω | Returns plain 1 3 (fun _ => T5Decode.step Transformer.flushed lg Transformer.demoNet ![1]
            (Transformer.encoder Transformer.flushed lg Transformer.demoNet ![1] (Masks.makeEncoderMask ![1] none))) 1
          [⟨[0, 0], none, none⟩] (fun _ => T5Decode.emptyCaches Transformer.demoNet 2) 2 (noise ω) (0, t) [1, 0]} =
        ENNReal.ofReal (Real.exp (Score.scoreRow logits (Score.Spec.asRow 2 [1, 0]) (Score.Spec.weightsFrom 2 0 [1, 0]))) := by
  refine C103_t5 (ex := Transformer.flushed) (lg := lg) (θ := 104) (B := 7) (net := Transformer.demoNet) (fun x hx => if_pos hx) (by norm_num)
    Transformer.demoNet_tame hno plain rfl rfl rfl (fun _ => ![1]) 3 1 (by norm_num) [((![0, 0] : Masks.Row 2), none)] 2 (by norm_num) 0 t (![0, 0], none) rfl 0
    goodRow_demo (fun j h1 h2 => by omega) [1, 0] ?_ ?_ ?_
  · refine ⟨rfl, fun j hj => by omega, fun i j _ hij hi => ?_, fun j _ hj => ?_⟩
    · rcases j with _ | _ | j
      · omega
      · rfl
      · simp [List.getD]
    · have : maxDecodeLen ⟨[0, 0], none, none⟩ = 2 := rfl
      have hj' : 2 ≤ j := hj
      rcases j with _ | _ | j
      · omega
      · omega
      · simp [List.getD]
  · intro j _ hj hno
    have hj' : j < 2 := hj
    rcases j with _ | _ | j
    · decide
    · exact absurd rfl (hno 0 (by omega) (by omega))
    · omega
  · intro j _
    rcases j with _ | _ | j
    · decide
    · decide
    · simp [List.getD]

end examples

end Verif.SampleLaw
