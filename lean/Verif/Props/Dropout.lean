import Verif.Lemmas.Dropout
import Verif.Props.PackedLoss
import Mathlib.Analysis.Calculus.FDeriv.Add
/-
Property C113: training with dropout.  Dropout lets nothing through the masks, does not change the expectation of what it is applied to, and the
logits of an example have the same distribution whether it is packed or not, so that packing does not change the expected loss.
-/
namespace Verif.Dropout
open Verif.Masks Verif.Transformer Verif.Transformer.Spec Verif.Dropout.Spec

variable {d h e f V N M : Nat} {ex : ℝ → ℝ} {lg : ℕ → ℝ} {θ B : ℝ} {net : TrainNet d h e f V N M} {md : Mode}

/-! ### One entry -/

/-- C113, one entry: dropout does not change the expectation of an entry. -/
theorem C113_unbiased (rate x : ℝ) (h0 : 0 ≤ rate) (h1 : rate < 1) :
    expect (1 - rate) (fun k : Unit → Bool => dropout false rate (k ()) x) = x := by
  have h2 : (1 : ℝ) - rate ≠ 0 := by linarith
  have hu : (Finset.univ : Finset (Unit → Bool)) = {fun _ => true, fun _ => false} := by decide
  unfold expect
  rw [hu, Finset.sum_pair (by decide)]
  simp only [prob, dropout, Finset.univ_unique, Finset.prod_singleton, Bool.false_eq_true, or_false, if_false, if_true]
  split_ifs with a b
  · ring
  · linarith
  · field_simp; ring

/-- C113, attention weights: their expectation is the softmax. -/
theorem C113_unbiased_attention (rate x : ℝ) (h0 : 0 ≤ rate) (h1 : rate < 1) :
    expect (1 - rate) (fun k : Unit → Bool => x * multiplier false rate (k ())) = x := by
  have h2 : (1 : ℝ) - rate ≠ 0 := by linarith
  have hu : (Finset.univ : Finset (Unit → Bool)) = {fun _ => true, fun _ => false} := by decide
  unfold expect
  rw [hu, Finset.sum_pair (by decide)]
  simp only [prob, multiplier, Finset.univ_unique, Finset.prod_singleton, true_and, if_true, Bool.false_eq_true, if_false]
  split_ifs with a
  · field_simp; ring
  · have : rate = 0 := by linarith
    rw [this]; ring

/-! ### The encoder-decoder network -/

theorem apply_some {n m : Nat} (k : Site n m d h f N M → Bool) (b : Input n m) (hs : SegsOk b) : ∃ y, apply ex lg net md k b = some y := by
  obtain ⟨A1, hA1, _⟩ := encMask b.encTokens b.encSeg
  obtain ⟨M1, hM1, _⟩ := decMask b.decTargets b.decSeg
  obtain ⟨C1, hC1, _⟩ := crossMask b.decTargets b.encTokens b.decSeg b.encSeg hs
  exact ⟨decoder ex lg net md k (encoder ex lg net md k b.encTokens (some A1)) b.decInputs (some M1) (some C1),
    by simp only [apply, hA1, hM1, hC1, Option.map_some, Option.bind_some]⟩

/-- C113: evaluation (`enable_dropout=False`) and training with rate 0 compute what the network without dropout computes, whatever the random
bits. -/
theorem C113_off (hmd : md.deterministic = true ∨ md.rate = 0) {n m : Nat} (k : Site n m d h f N M → Bool) (b : Input n m) :
    apply ex lg net md k b = Transformer.apply ex lg net.toNet b := by
  have e1 : ∀ b : Bool, md.drop b = fun x => x := fun b => funext fun x => drop_det md hmd b x
  have henc : ∀ A, encoder ex lg net md k b.encTokens (some A) = Transformer.encoder ex lg net.toNet b.encTokens (some A) := by
    intro A
    funext i c
    simp only [encoder, Transformer.encoder, TrainNet.toNet, foldl_ofFn, e1]
    have : (encLayer ex lg net md k (some A)) = fun x l => Transformer.encLayer ex lg net.toNet (some A) x (net.enc l) := by
      funext x l i
      simp only [encLayer, block, Transformer.encLayer, factor_det md hmd, e1, attention_one, mlpBlock_id]
      rfl
    rw [this]; rfl
  have hdec : ∀ (en : Fin m → Vec d) Mk C, decoder ex lg net md k en b.decInputs (some Mk) (some C) =
      Transformer.decoder ex lg net.toNet en b.decInputs (some Mk) (some C) := by
    intro en Mk C
    funext i
    simp only [decoder, Transformer.decoder, TrainNet.toNet, foldl_ofFn, e1]
    have : (decLayer ex lg net md k (some Mk) (some C) en) = fun x l => Transformer.decLayer ex lg net.toNet (some Mk) (some C) en x (net.dec l) := by
      funext x l i
      simp only [decLayer, Transformer.decLayer, factor_det md hmd, e1, attention_one, mlpBlock_id]
      rfl
    rw [this]; rfl
  simp only [apply, Transformer.apply, Transformer.encode]
  cases makeEncoderMask b.encTokens b.encSeg with
  | none => rfl
  | some A =>
    simp only [Option.bind_some, Option.map_some, henc, hdec]

/-- C113: with dropout, the logits of an example depend only on the example and on the bits that belong to its positions.  As C93: two rows, of
any lengths, hold the same example (the whole text on the encoder side, the text up to position i on the decoder side), and they have the same
dropout there. -/
theorem C113_same_logits (hex : Underflows ex θ) (hθ : 0 < θ) (ht : TameTrain net md.rate θ B) {n1 m1 n2 m2 : Nat} (b1 : Input n1 m1)
    (b2 : Input n2 m2) (hs1 : SegsOk b1) (hs2 : SegsOk b2) (δ δe : ℤ) (s1 s2 : Int) (i : Fin n1) (j : Fin n2) (hij : (j.val : ℤ) = i.val + δ)
    (hd : SameText (fun p => p ≤ i.val) δ s1 s2 b1.decSeg b1.decTargets b1.decInputs b2.decSeg b2.decTargets b2.decInputs)
    (he : SameText Everywhere δe s1 s2 b1.encSeg b1.encTokens b1.encTokens b2.encSeg b2.encTokens b2.encTokens)
    (hi : InSeg b1.decSeg s1 i) (hti : b1.decTargets i > 0) (hne : ∃ k, InSeg b1.encSeg s1 k ∧ b1.encTokens k > 0)
    (k1 : Site n1 m1 d h f N M → Bool) (k2 : Site n2 m2 d h f N M → Bool) (hk : SameKeep δ δe k1 k2) :
    ∃ y1 y2, apply ex lg net md k1 b1 = some y1 ∧ apply ex lg net md k2 b2 = some y2 ∧ y1 i = y2 j := by
  obtain ⟨A1, A2, M1, M2, C1, C2, Q, R, ⟨hA1, hA2⟩, ⟨hM1, hM2⟩, ⟨hC1, hC2⟩, cQ, cR, h1, h2, h3, tokQ, inR, hR⟩ :=
    rows_corr b1 b2 hs1 hs2 δ δe s1 s2 i j hij hd he hi hti hne
  refine ⟨decoder ex lg net md k1 (encoder ex lg net md k1 b1.encTokens (some A1)) b1.decInputs (some M1) (some C1),
    decoder ex lg net md k2 (encoder ex lg net md k2 b2.encTokens (some A2)) b2.decInputs (some M2) (some C2),
    by simp only [apply, hA1, hM1, hC1, Option.map_some, Option.bind_some],
    by simp only [apply, hA2, hM2, hC2, Option.map_some, Option.bind_some], ?_⟩
  have e1 : ∀ c, k1 (.decOutput c) = k2 (.decOutput c) := fun c => hk _ _ (.decOutput c)
  simp only [decoder, e1]
  congr 1
  refine dec_sim hex hθ ht cR cQ.off h1 h2 h3 hk _ _ _ _ (encoder_sim hex hθ ht cQ hk _ _ tokQ) (List.finRange M) _ _ ?_ i j hR
  intro i j hij
  funext c
  rw [hk _ _ (.decInput c), inR i j hij]

theorem Moved.same {n m : Nat} (s t : Site n m d h f N M) (hm : Moved 0 0 s t) : s = t := by
  cases hm <;> first
    | rfl
    | (rename_i hk; congr 1; ext; omega)

/-- C113, causality in training: with any dropout, changing decoder inputs and targets after position i does not change the logits at i; of
the targets up to i only which of them are padding matters, so the logits at i do not depend on the token to be predicted. -/
theorem C113_causal (hex : Underflows ex θ) (hθ : 0 < θ) (ht : TameTrain net md.rate θ B) {n m : Nat} (b : Input n m) (inputs targets : Row n)
    (hs : SegsOk b) (i : Fin n) (hti : b.decTargets i > 0)
    (hsame : ∀ j ≤ i, inputs j = b.decInputs j ∧ (targets j > 0 ↔ b.decTargets j > 0))
    (hne : ∃ k, (∀ ds es, b.decSeg = some ds → b.encSeg = some es → es k = ds i) ∧ b.encTokens k > 0) (keep : Site n m d h f N M → Bool) :
    ∃ y1 y2, apply ex lg net md keep b = some y1 ∧ apply ex lg net md keep { b with decInputs := inputs, decTargets := targets } = some y2 ∧
      y1 i = y2 i := by
  obtain ⟨s, hs1, hs2⟩ : ∃ s, InSeg b.decSeg s i ∧ ∃ k, InSeg b.encSeg s k ∧ b.encTokens k > 0 := by
    obtain ⟨k, hk, hk'⟩ := hne
    cases hds : b.decSeg with
    | none =>
      refine ⟨0, (fun r hr => by cases hr), k, (fun r hr => ?_), hk'⟩
      have := hs (by rw [hr]; rfl); rw [hds] at this; simp at this
    | some ds =>
      exact ⟨ds i, (fun r hr => by cases hr; rfl), k, (fun r hr => hk ds r hds hr), hk'⟩
  refine C113_same_logits hex hθ ht b { b with decInputs := inputs, decTargets := targets } hs hs 0 0 s s i i (by simp) ?_ ?_ hs1 hti hs2
    keep keep (fun s t hst => by rw [Moved.same s t hst])
  · constructor
    · intro j hj hj1 hj2
      have hle : j ≤ i := by rw [Fin.le_def]; simpa using hj
      exact ⟨j, by simp, hj1, (hsame j hle).2.2 hj2, (hsame j hle).1⟩
    · intro j hj hj1 hj2
      have hle : j ≤ i := by rw [Fin.le_def]; simpa using hj
      exact ⟨j, by simp, hj1, (hsame j hle).2.1 hj2⟩
  · exact ⟨fun j _ hj htj => ⟨j, by simp, hj, htj, rfl⟩, fun j _ hj htj => ⟨j, by simp, hj, htj⟩⟩

/-- Where the bits of a row are found among those of a longer row which holds it from positions a and c on. -/
def place {n0 m0 n m : Nat} (a c : Nat) (hn : a + n0 ≤ n) (hm : c + m0 ≤ m) : Site n0 m0 d h f N M → Site n m d h f N M
  | .encInput x => .encInput x
  | .encAttention l hd k => .encAttention l hd ⟨c + k.val, by omega⟩
  | .encPost l x => .encPost l x
  | .encInner l x => .encInner l x
  | .encPostMlp l x => .encPostMlp l x
  | .encOutput k x => .encOutput ⟨c + k.val, by omega⟩ x
  | .decInput x => .decInput x
  | .decSelf l hd k => .decSelf l hd ⟨a + k.val, by omega⟩
  | .decPostSelf l x => .decPostSelf l x
  | .decCross l hd k => .decCross l hd ⟨c + k.val, by omega⟩
  | .decPostCross l x => .decPostCross l x
  | .decInner l x => .decInner l x
  | .decPostMlp l x => .decPostMlp l x
  | .decOutput x => .decOutput x

theorem place_inj {n0 m0 n m : Nat} (a c : Nat) (hn : a + n0 ≤ n) (hm : c + m0 ≤ m) :
    Function.Injective (place (d := d) (h := h) (f := f) (N := N) (M := M) a c hn hm) := by
  intro s t hst
  cases s <;> cases t <;> simp_all [place, Fin.ext_iff]

theorem place_same {n0 m0 n m : Nat} (a c : Nat) (hn : a + n0 ≤ n) (hm : c + m0 ≤ m) (k : Site n m d h f N M → Bool) :
    SameKeep a c (k ∘ place a c hn hm) k := by
  intro s t hst
  cases hst <;> simp only [Function.comp, place] <;> rename_i hk <;> congr <;> omega

theorem packed_path (hex : Underflows ex θ) (hθ : 0 < θ) (ht : TameTrain net md.rate θ B) {n0 m0 n m : Nat} (alone : Input n0 m0)
    (packed : Input n m) (h1 : alone.encSeg = none) (h2 : alone.decSeg = none) (es : Row m) (ds : Row n) (h3 : packed.encSeg = some es)
    (h4 : packed.decSeg = some ds) (s : Int) (a c : Nat)
    (hds : ∀ j, ds j = s ↔ a ≤ j.val ∧ j.val < a + n0) (hes : ∀ j, es j = s ↔ c ≤ j.val ∧ j.val < c + m0)
    (hn : a + n0 ≤ n) (hm : c + m0 ≤ m)
    (htok : ∀ (i : Fin n0) (j : Fin n), j.val = a + i.val → packed.decTargets j = alone.decTargets i ∧ packed.decInputs j = alone.decInputs i)
    (henc : ∀ (i : Fin m0) (j : Fin m), j.val = c + i.val → packed.encTokens j = alone.encTokens i)
    (hne : ∃ k, alone.encTokens k > 0) (k : Site n m d h f N M → Bool) :
    ∃ y1 y2, apply ex lg net md (k ∘ place a c hn hm) alone = some y1 ∧ apply ex lg net md k packed = some y2 ∧
      ∀ (i : Fin n0) (j : Fin n), j.val = a + i.val → alone.decTargets i > 0 → y1 i = y2 j := by
  have inalone : ∀ i, InSeg alone.decSeg 0 i := fun i r hr => by rw [h2] at hr; cases hr
  have inalone' : ∀ i, InSeg alone.encSeg 0 i := fun i r hr => by rw [h1] at hr; cases hr
  have o1 : SegsOk alone := by unfold SegsOk; rw [h1]; simp
  have o2 : SegsOk packed := by unfold SegsOk; rw [h4]; simp
  have he : SameText Everywhere c 0 s alone.encSeg alone.encTokens alone.encTokens packed.encSeg packed.encTokens packed.encTokens := by
    constructor
    · intro i _ _ hi
      have hi' := i.isLt
      refine ⟨⟨c + i.val, by omega⟩, by push_cast; omega, ?_, by rw [henc i ⟨c + i.val, by omega⟩ rfl]; exact hi, henc i ⟨c + i.val, by omega⟩ rfl⟩
      intro r hr
      rw [h3] at hr; cases hr
      exact (hes _).2 ⟨by simp, by simp⟩
    · intro j _ hj htj
      obtain ⟨hj1, hj2⟩ := (hes j).1 (hj es h3)
      refine ⟨⟨j.val - c, by omega⟩, by push_cast; omega, inalone' _, ?_⟩
      rw [← henc ⟨j.val - c, by omega⟩ j (by simp; omega)]; exact htj
  have hd : ∀ W, SameText W a 0 s alone.decSeg alone.decTargets alone.decInputs packed.decSeg packed.decTargets packed.decInputs := by
    intro W
    constructor
    · intro i _ _ hi
      have hi' := i.isLt
      refine ⟨⟨a + i.val, by omega⟩, by push_cast; omega, ?_, by rw [(htok i ⟨a + i.val, by omega⟩ rfl).1]; exact hi, (htok i ⟨a + i.val, by omega⟩ rfl).2⟩
      intro r hr
      rw [h4] at hr; cases hr
      exact (hds _).2 ⟨by simp, by simp⟩
    · intro j _ hj htj
      obtain ⟨hj1, hj2⟩ := (hds j).1 (hj ds h4)
      refine ⟨⟨j.val - a, by omega⟩, by push_cast; omega, inalone _, ?_⟩
      rw [← (htok ⟨j.val - a, by omega⟩ j (by simp; omega)).1]; exact htj
  obtain ⟨k', hk'⟩ := hne
  obtain ⟨z1, hz1⟩ := apply_some (ex := ex) (lg := lg) (net := net) (md := md) (k ∘ place a c hn hm) alone o1
  obtain ⟨z2, hz2⟩ := apply_some (ex := ex) (lg := lg) (net := net) (md := md) k packed o2
  refine ⟨z1, z2, hz1, hz2, fun i j hij hti => ?_⟩
  obtain ⟨y1, y2, e1, e2, hy⟩ := C113_same_logits (lg := lg) hex hθ ht alone packed o1 o2 a c 0 s i j (by omega) (hd _) he (inalone i) hti
    ⟨k', inalone' k', hk'⟩ _ _ (place_same a c hn hm k)
  rw [hz1] at e1; rw [hz2] at e2
  cases e1; cases e2
  exact hy

/-- C113, packing: if the bits are drawn independently, the logits of an example's targets have the same joint distribution whether the example
is alone in its rows or is segment s of packed rows (as in C93): the expectation of every function of them is the same. -/
theorem C113_packed (hex : Underflows ex θ) (hθ : 0 < θ) (ht : TameTrain net md.rate θ B) {n0 m0 n m : Nat} (alone : Input n0 m0)
    (packed : Input n m) (h1 : alone.encSeg = none) (h2 : alone.decSeg = none) (es : Row m) (ds : Row n) (h3 : packed.encSeg = some es)
    (h4 : packed.decSeg = some ds) (s : Int) (a c : Nat)
    (hds : ∀ j, ds j = s ↔ a ≤ j.val ∧ j.val < a + n0) (hes : ∀ j, es j = s ↔ c ≤ j.val ∧ j.val < c + m0)
    (hn : a + n0 ≤ n) (hm : c + m0 ≤ m)
    (htok : ∀ (i : Fin n0) (j : Fin n), j.val = a + i.val → packed.decTargets j = alone.decTargets i ∧ packed.decInputs j = alone.decInputs i)
    (henc : ∀ (i : Fin m0) (j : Fin m), j.val = c + i.val → packed.encTokens j = alone.encTokens i)
    (hne : ∃ k, alone.encTokens k > 0) :
    ∃ (Y1 : (Site n0 m0 d h f N M → Bool) → Fin n0 → Vec V) (Y2 : (Site n m d h f N M → Bool) → Fin n → Vec V),
      (∀ k, apply ex lg net md k alone = some (Y1 k)) ∧ (∀ k, apply ex lg net md k packed = some (Y2 k)) ∧
      ∀ F, OnTargets alone.decTargets F →
        expect (1 - md.rate) (fun k => F (Y1 k)) = expect (1 - md.rate) (fun k => F fun i => Y2 k ⟨a + i.val, by omega⟩) := by
  have o1 : SegsOk alone := by unfold SegsOk; rw [h1]; simp
  have o2 : SegsOk packed := by unfold SegsOk; rw [h4]; simp
  refine ⟨fun k => (apply_some (ex := ex) (lg := lg) (net := net) (md := md) k alone o1).choose,
    fun k => (apply_some (ex := ex) (lg := lg) (net := net) (md := md) k packed o2).choose,
    fun k => (apply_some (ex := ex) (lg := lg) (net := net) (md := md) k alone o1).choose_spec,
    fun k => (apply_some (ex := ex) (lg := lg) (net := net) (md := md) k packed o2).choose_spec, fun F hF => ?_⟩
  rw [← expect_comp (place a c hn hm) (place_inj a c hn hm)]
  congr 1
  funext k
  refine hF _ _ fun i hi => ?_
  obtain ⟨y1, y2, e1, e2, hy⟩ := packed_path (lg := lg) hex hθ ht alone packed h1 h2 es ds h3 h4 s a c hds hes hn hm htok henc hne k
  have f1 := (apply_some (ex := ex) (lg := lg) (net := net) (md := md) (k ∘ place a c hn hm) alone o1).choose_spec
  have f2 := (apply_some (ex := ex) (lg := lg) (net := net) (md := md) k packed o2).choose_spec
  have g1 := Option.some.inj (e1.symm.trans f1)
  have g2 := Option.some.inj (e2.symm.trans f2)
  beta_reduce
  rw [← g1, ← g2]
  exact hy i _ rfl hi

theorem padded_path (hex : Underflows ex θ) (hθ : 0 < θ) (ht : TameTrain net md.rate θ B) {n1 m1 n2 m2 : Nat} (b1 : Input n1 m1) (b2 : Input n2 m2)
    (h1 : b1.encSeg = none ∧ b1.decSeg = none) (h2 : b2.encSeg = none ∧ b2.decSeg = none)
    (htok : ∀ (i : Fin n1) (j : Fin n2), i.val = j.val → b1.decTargets i = b2.decTargets j ∧ b1.decInputs i = b2.decInputs j)
    (henc : ∀ (i : Fin m1) (j : Fin m2), i.val = j.val → b1.encTokens i = b2.encTokens j) (hn : n1 ≤ n2) (hm : m1 ≤ m2)
    (hpad2 : ∀ i : Fin n2, n1 ≤ i.val → b2.decTargets i = 0) (hpad4 : ∀ i : Fin m2, m1 ≤ i.val → b2.encTokens i = 0)
    (hne : ∃ k, b1.encTokens k > 0) (k : Site n2 m2 d h f N M → Bool) :
    ∃ y1 y2, apply ex lg net md (k ∘ place 0 0 (by omega) (by omega)) b1 = some y1 ∧ apply ex lg net md k b2 = some y2 ∧
      ∀ (i : Fin n1) (j : Fin n2), i.val = j.val → b1.decTargets i > 0 → y1 i = y2 j := by
  have s1 : ∀ i, InSeg b1.decSeg 0 i := fun i r hr => by rw [h1.2] at hr; cases hr
  have s1' : ∀ i, InSeg b1.encSeg 0 i := fun i r hr => by rw [h1.1] at hr; cases hr
  have s2 : ∀ i, InSeg b2.decSeg 0 i := fun i r hr => by rw [h2.2] at hr; cases hr
  have s2' : ∀ i, InSeg b2.encSeg 0 i := fun i r hr => by rw [h2.1] at hr; cases hr
  have o1 : SegsOk b1 := by unfold SegsOk; rw [h1.1]; simp
  have o2 : SegsOk b2 := by unfold SegsOk; rw [h2.1]; simp
  have he : SameText Everywhere 0 0 0 b1.encSeg b1.encTokens b1.encTokens b2.encSeg b2.encTokens b2.encTokens := by
    constructor
    · intro i _ _ hi
      have hlt : i.val < m2 := by have := i.isLt; omega
      exact ⟨⟨i.val, hlt⟩, by simp, s2' _, by rw [← henc i ⟨i.val, hlt⟩ rfl]; exact hi, (henc i ⟨i.val, hlt⟩ rfl).symm⟩
    · intro j _ _ hj
      have hlt : j.val < m1 := by by_contra hc; rw [hpad4 j (by omega)] at hj; omega
      exact ⟨⟨j.val, hlt⟩, by simp, s1' _, by rw [henc ⟨j.val, hlt⟩ j rfl]; exact hj⟩
  have hd : ∀ W, SameText W 0 0 0 b1.decSeg b1.decTargets b1.decInputs b2.decSeg b2.decTargets b2.decInputs := by
    intro W
    constructor
    · intro i _ _ hi
      have hlt : i.val < n2 := by have := i.isLt; omega
      exact ⟨⟨i.val, hlt⟩, by simp, s2 _, by rw [← (htok i ⟨i.val, hlt⟩ rfl).1]; exact hi, (htok i ⟨i.val, hlt⟩ rfl).2.symm⟩
    · intro j _ _ hj
      have hlt : j.val < n1 := by by_contra hc; rw [hpad2 j (by omega)] at hj; omega
      exact ⟨⟨j.val, hlt⟩, by simp, s1 _, by rw [(htok ⟨j.val, hlt⟩ j rfl).1]; exact hj⟩
  obtain ⟨k', hk'⟩ := hne
  obtain ⟨z1, hz1⟩ := apply_some (ex := ex) (lg := lg) (net := net) (md := md) (k ∘ place 0 0 (by omega) (by omega)) b1 o1
  obtain ⟨z2, hz2⟩ := apply_some (ex := ex) (lg := lg) (net := net) (md := md) k b2 o2
  refine ⟨z1, z2, hz1, hz2, fun i j hij hti => ?_⟩
  obtain ⟨y1, y2, e1, e2, hy⟩ := C113_same_logits (lg := lg) hex hθ ht b1 b2 o1 o2 0 0 0 0 i j (by omega) (hd _) he (s1 i) hti ⟨k', s1' k', hk'⟩
    _ _ (by have := place_same (d := d) (h := h) (f := f) (N := N) (M := M) 0 0 (by omega : 0 + n1 ≤ n2) (by omega : 0 + m1 ≤ m2) k; simpa using this)
  rw [hz1] at e1; rw [hz2] at e2
  cases e1; cases e2
  exact hy

/-! ### The expected loss of a batch -/

open Verif.PackedLoss Verif.PackedLoss.Spec

/-- A row of numbers in terms of the examples of the row. -/
theorem row_terms {n : Nat} (g : List Example) (hf : (g.flatMap Example.targets).length ≤ n) (Z : Fin n → ℝ) (t : Example → Nat → ℝ)
    (hZ : ∀ pre x post, g = pre ++ x :: post → ∀ (i : Nat) (j : Fin n), i < x.targets.length →
      j.val = (pre.flatMap Example.targets).length + i → Z j = t x i) :
    ∃ rest, List.ofFn Z = g.flatMap (fun x => (List.range x.targets.length).map (t x)) ++ rest := by
  have hlen : ∀ es : List Example, (es.flatMap fun x => (List.range x.targets.length).map (t x)).length = (es.flatMap Example.targets).length :=
    fun es => flatMap_length_eq _ _ es fun e _ => by simp
  refine ⟨(List.ofFn Z).drop (g.flatMap Example.targets).length, ?_⟩
  conv_lhs => rw [← List.take_append_drop (g.flatMap Example.targets).length (List.ofFn _)]
  congr 1
  apply List.ext_getElem
  · rw [hlen, List.length_take, List.length_ofFn]; omega
  · intro k h1 h2
    rw [hlen] at h2
    obtain ⟨pre, x, post, i, h3, h4, h5⟩ := flatMap_split Example.targets g k h2
    have e1 := getD_flatMap (fun x => (List.range x.targets.length).map (t x)) 0 pre x post i (by simpa using h4)
    rw [hlen, ← h5, ← h3] at e1
    rw [List.getElem_take, List.getElem_ofFn, hZ pre x post h3 i ⟨k, by omega⟩ h4 h5]
    rw [List.getD_eq_getElem?_getD, List.getElem?_eq_getElem (by rw [hlen]; exact h2), Option.getD_some] at e1
    rw [e1]
    simp [List.getD_eq_getElem?_getD, h4]

theorem zipWith_sum {n : Nat} (X : Fin n → ℝ) (w : List ℝ) : (List.zipWith (· * ·) (List.ofFn X) w).sum = ∑ j : Fin n, X j * w.getD j 0 := by
  induction n generalizing w with
  | zero => simp
  | succ n ih =>
    rw [List.ofFn_succ, Fin.sum_univ_succ]
    cases w with
    | nil => simp
    | cons a w =>
      rw [List.zipWith_cons_cons, List.sum_cons, ih]
      simp

theorem total_sum {R n : Nat} (X : Fin R → Fin n → ℝ) (W : List (List ℝ)) :
    LossWeights.total (List.zipWith (List.zipWith (· * ·)) (List.ofFn fun r => List.ofFn (X r)) W) =
      ∑ r : Fin R, ∑ j : Fin n, X r j * (W.getD r []).getD j 0 := by
  induction R generalizing W with
  | zero => simp [LossWeights.total]
  | succ R ih =>
    rw [List.ofFn_succ, Fin.sum_univ_succ]
    cases W with
    | nil => simp [LossWeights.total]
    | cons a W =>
      have := ih (fun r => X r.succ) W
      simp only [LossWeights.total] at this
      simp only [LossWeights.total, List.zipWith_cons_cons, List.map_cons, List.sum_cons, zipWith_sum, this]
      simp

section Loss
variable {S : Type} [Fintype S] [DecidableEq S]

/-- The logits of a row have the distributions of those of its examples, at the places where they are packed. -/
def AgreeE {n m : Nat} (q : ℝ) (logits : (S → Bool) → TrainRow n m → Option (Fin n → Vec V)) (ref : Example → Nat → (Vec V → ℝ) → ℝ)
    (g : List Example) : Prop :=
  ∃ Y : (S → Bool) → Fin n → Vec V, (∀ k, logits k (packRow n m g) = some (Y k)) ∧ ∀ pre x post, g = pre ++ x :: post → ∀ (i : Nat) (j : Fin n), i < x.targets.length →
    j.val = (pre.flatMap Example.targets).length + i → ∀ F : Vec V → ℝ, expect q (fun k => F (Y k j)) = ref x i F

theorem expected_loss {n m : Nat} {packed : Bool} {groups : List (List Example)} (h : Made n m packed groups) (weighted : Bool) (q : ℝ)
    (logits : (S → Bool) → TrainRow n m → Option (Fin n → Vec V)) (ref : Example → Nat → (Vec V → ℝ) → ℝ)
    (ha : ∀ g ∈ groups, AgreeE q logits ref g)
    (lnf : LossWeights.LNF ℝ) (smoothing z : ℝ) (w : Example → List ℝ) (k : Option ℝ) (hw : ∀ e, e.WF → (w e).length = e.targets.length)
    (hlnf : LossWeights.lnfAndWeights lnf (lossFeatures ⟨groups.map (packRow n m), packed, weighted⟩) =
      some (k, some (groups.map fun g => g.flatMap w ++ List.replicate (fill n g) 0))) :
    ∃ L : (Fin (groups.map (packRow n m)).length × S → Bool) → ℝ × ℝ × ℝ,
      (∀ keep, lossFn logits lnf smoothing z ⟨groups.map (packRow n m), packed, weighted⟩ (fun r s => keep (r, s)) = some (L keep)) ∧
      expect q (fun keep => (L keep).1) = over k (groups.flatten.map fun x => (List.zipWith (· * ·) ((List.range x.targets.length).map fun i =>
        ref x i fun y => (position smoothing z y (x.targets.getD i 0)).1) (w x)).sum).sum ∧
      expect q (fun keep => (L keep).2.1) = over k (groups.flatten.map fun x => (List.zipWith (· * ·) ((List.range x.targets.length).map fun i =>
        ref x i fun y => (position smoothing z y (x.targets.getD i 0)).2) (w x)).sum).sum ∧
      ∀ keep, (L keep).2.2 = (groups.flatten.map fun x => (w x).sum).sum := by
  let rows := groups.map (packRow n m)
  have hY : ∀ (keep : S → Bool) (r : TrainRow n m), r ∈ rows → logits keep r = some ((logits keep r).getD fun _ _ => 0) := by
    intro keep r hr
    obtain ⟨g, hg, rfl⟩ := List.mem_map.1 hr
    obtain ⟨Y, hY, _⟩ := ha g hg
    rw [hY]; rfl
  let T : (ℝ × ℝ → ℝ) → (S → Bool) → TrainRow n m → Fin n → ℝ := fun p keep r j =>
    p (position smoothing z (((logits keep r).getD fun _ _ => 0) j) (r.decTargets j))
  have hmap : ∀ keep : Fin rows.length × S → Bool, (List.finRange rows.length).mapM (fun r => logits (fun s => keep (r, s)) (rows.get r)) =
      some ((List.finRange rows.length).map fun r => (logits (fun s => keep (r, s)) (rows.get r)).getD fun _ _ => 0) := fun keep =>
    mapM_some _ _ _ fun r _ => hY _ _ (List.get_mem _ _)
  have hz : ∀ (keep : Fin rows.length × S → Bool) (p : ℝ × ℝ → ℝ),
      (List.zipWith (fun (y : Fin n → Vec V) (r : TrainRow n m) => List.ofFn fun i => position smoothing z (y i) (r.decTargets i))
        ((List.finRange rows.length).map fun r => (logits (fun s => keep (r, s)) (rows.get r)).getD fun _ _ => 0) rows).map (fun r => r.map p) =
      List.ofFn fun r => List.ofFn (T p (fun s => keep (r, s)) (rows.get r)) := by
    intro keep p
    apply List.ext_getElem
    · simp
    · intro i h1 h2
      simp only [List.getElem_map, List.getElem_zipWith, List.getElem_ofFn, List.map_ofFn, List.getElem_finRange, T]
      rfl
  let W : List (List ℝ) := groups.map fun g => g.flatMap w ++ List.replicate (fill n g) 0
  have hE : ∀ p : ℝ × ℝ → ℝ, expect q (fun keep : Fin rows.length × S → Bool => LossWeights.total (List.zipWith (List.zipWith (· * ·))
        (List.ofFn fun r => List.ofFn (T p (fun s => keep (r, s)) (rows.get r))) W)) =
      (groups.flatten.map fun x => (List.zipWith (· * ·) ((List.range x.targets.length).map fun i =>
        ref x i fun y => p (position smoothing z y (x.targets.getD i 0))) (w x)).sum).sum := by
    intro p
    simp only [total_sum]
    rw [expect_sum]
    simp only [expect_sum, expect_mul]
    have e1 : ∀ (r : Fin rows.length) (j : Fin n), expect q (fun keep : Fin rows.length × S → Bool => T p (fun s => keep (r, s)) (rows.get r) j) =
        expect q (fun keep : S → Bool => T p keep (rows.get r) j) := fun r j =>
      expect_comp (fun s => (r, s)) (fun s t hst => by simpa using hst) q fun keep => T p keep (rows.get r) j
    simp only [e1]
    rw [← total_sum (fun r j => expect q fun keep : S → Bool => T p keep (rows.get r) j)]
    have e2 : (List.ofFn fun r : Fin rows.length => List.ofFn fun j => expect q fun keep : S → Bool => T p keep (rows.get r) j) =
        groups.map fun g => List.ofFn fun j => expect q fun keep : S → Bool => T p keep (packRow n m g) j := by
      apply List.ext_getElem
      · simp [rows]
      · intro i h1 h2
        simp [rows]
    rw [e2]
    refine total_groups groups _ (fun x => (List.range x.targets.length).map fun i => ref x i fun y => p (position smoothing z y (x.targets.getD i 0)))
      w (fill n) ?_ ?_
    · intro g hg
      obtain ⟨Y, hY, hY'⟩ := ha g hg
      refine row_terms g (h.fits g hg).1 _ _ ?_
      intro pre x post hgx i j hi hj
      have := hY' pre x post hgx i j hi hj fun y => p (position smoothing z y (x.targets.getD i 0))
      rw [← this]
      have e3 := getD_flatMap Example.targets 0 pre x post i hi
      rw [← hgx, ← hj] at e3
      simp only [T, hY, Option.getD_some]
      have e4 : (packRow n m g).decTargets j = x.targets.getD i 0 := e3
      rw [e4]
    · intro g hg x hx
      simp [hw x (h.wf g hg x hx)]
  refine ⟨fun keep => (over k (LossWeights.total (List.zipWith (List.zipWith (· * ·)) (List.ofFn fun r => List.ofFn (T Prod.fst (fun s => keep (r, s)) (rows.get r))) W)),
    over k (LossWeights.total (List.zipWith (List.zipWith (· * ·)) (List.ofFn fun r => List.ofFn (T Prod.snd (fun s => keep (r, s)) (rows.get r))) W)),
    (groups.flatten.map fun x => (w x).sum).sum), ?_, ?_, ?_, fun _ => rfl⟩
  · intro keep
    simp only [lossFn]
    rw [show (List.finRange (groups.map (packRow n m)).length).mapM (fun r => logits (fun s => keep (r, s)) ((groups.map (packRow n m)).get r)) = _ from
      hmap keep]
    simp only [Option.bind_some, hlnf, Option.map_some, weighAndSum]
    have h1 := hz keep Prod.fst
    have h2 := hz keep Prod.snd
    simp only [rows] at h1 h2
    simp only [rows, h1, h2, total_weights, W]
    cases k with
    | none => rfl
    | some k => simp only [total_div, over]
  · cases k with
    | none => exact hE Prod.fst
    | some k =>
      simp only [over, div_eq_mul_inv, expect_mul]
      rw [← hE Prod.fst]
  · cases k with
    | none => exact hE Prod.snd
    | some k =>
      simp only [over, div_eq_mul_inv, expect_mul]
      rw [← hE Prod.snd]

end Loss

/-! ### Encoder-decoder models -/

section EncDec

/-- The expectation of a function of the logits of the i-th target of an example on its own. -/
noncomputable def encDecRef (ex : ℝ → ℝ) (lg : ℕ → ℝ) (net : TrainNet d h e f V N M) (md : Mode) (x : Example) (i : Nat) (F : Vec V → ℝ) : ℝ :=
  if hi : i < x.targets.length then
    expect (1 - md.rate) fun k => F (((apply ex lg net md k (aloneInput x)).getD fun _ _ => 0) ⟨i, hi⟩)
  else 0

theorem encDec_packed {rate : ℝ} (hex : Underflows ex θ) (hθ : 0 < θ) (ht : TameTrain net rate θ B) (on : Bool) {n m : Nat} (g : List Example)
    (hwf : ∀ x ∈ g, x.WF) (htext : ∀ x ∈ g, x.HasText) (hfit : Fits n m g) :
    AgreeE (n := n) (m := m) (1 - rate) (encDecLogits ex lg net on rate true) (encDecRef ex lg net ⟨!on, rate⟩) g := by
  let b : Transformer.Input n m :=
    ⟨(packRow n m g).encTokens, (packRow n m g).decInputs, (packRow n m g).decTargets, some (packRow n m g).encSeg, some (packRow n m g).decSeg⟩
  have hok : SegsOk b := by simp [SegsOk, b]
  refine ⟨fun k => (apply ex lg net ⟨!on, rate⟩ k b).getD fun _ _ => 0, fun k => ?_, fun pre x post hg i j hi hj F => ?_⟩
  · obtain ⟨y, hy⟩ := apply_some (ex := ex) (lg := lg) (net := net) (md := ⟨!on, rate⟩) k b hok
    have : encDecLogits ex lg net on rate true k (packRow n m g) = apply ex lg net ⟨!on, rate⟩ k b := rfl
    rw [this]; beta_reduce; rw [hy]; rfl
  have hx : x ∈ g := by rw [hg]; simp
  have hlin : (pre.flatMap Example.inputs).length = (pre.flatMap Example.targets).length :=
    flatMap_length_eq _ _ _ fun z hz => (hwf z (by rw [hg]; simp [hz])).inputs
  have hn := (row_length hg Example.targets).trans hfit.1
  have hm := (row_length hg Example.enc).trans hfit.2
  simp only [encDecRef, dif_pos hi]
  rw [← expect_comp (place _ _ hn hm) (place_inj _ _ hn hm)]
  congr 1
  funext k
  congr 1
  obtain ⟨y1, y2, h1, h2, h3⟩ := packed_path (lg := lg) (md := ⟨!on, rate⟩) hex hθ ht (aloneInput x) b
    rfl rfl _ _ rfl rfl (1 + pre.length) (pre.flatMap Example.targets).length (pre.flatMap Example.enc).length
    (fun j => by
      simp only [packRow, pad]
      rw [hg, ids_spec _ pre x post 1 (by decide), sum_lengths])
    (fun j => by
      simp only [packRow, pad]
      rw [hg, ids_spec _ pre x post 1 (by decide), sum_lengths]) hn hm
    (fun i j hij => by
      simp only [b, packRow, pad, aloneInput, hij]
      have e1 := getD_flatMap Example.targets 0 pre x post i.val i.isLt
      have e2 := getD_flatMap Example.inputs 0 pre x post i.val (by rw [(hwf x hx).inputs]; exact i.isLt)
      rw [← hg] at e1 e2
      rw [hlin] at e2
      exact ⟨e1, e2⟩)
    (fun i j hij => by
      simp only [b, packRow, pad, aloneInput, hij]
      have e1 := getD_flatMap Example.enc 0 pre x post i.val i.isLt
      rw [← hg] at e1
      exact e1)
    (alone_text (htext x hx)) k
  rw [h1, h2]
  exact (h3 ⟨i, hi⟩ j hj (alone_pos (hwf x hx) _)).symm

theorem encDec_padded {rate : ℝ} (hex : Underflows ex θ) (hθ : 0 < θ) (ht : TameTrain net rate θ B) (on : Bool) {n m : Nat} (x : Example)
    (hwf : x.WF) (htext : x.HasText) (hfit : Fits n m [x]) :
    AgreeE (n := n) (m := m) (1 - rate) (encDecLogits ex lg net on rate false) (encDecRef ex lg net ⟨!on, rate⟩) [x] := by
  let b : Transformer.Input n m := ⟨(packRow n m [x]).encTokens, (packRow n m [x]).decInputs, (packRow n m [x]).decTargets, none, none⟩
  have f1 : x.targets.length ≤ n := by simpa using hfit.1
  have f2 : x.enc.length ≤ m := by simpa using hfit.2
  refine ⟨fun k => (apply ex lg net ⟨!on, rate⟩ k b).getD fun _ _ => 0, fun k => ?_, fun pre x' post hg i j hi hj F => ?_⟩
  · obtain ⟨y, hy⟩ := apply_some (ex := ex) (lg := lg) (net := net) (md := ⟨!on, rate⟩) k b (by simp [SegsOk, b])
    have : encDecLogits ex lg net on rate false k (packRow n m [x]) = apply ex lg net ⟨!on, rate⟩ k b := rfl
    rw [this]; beta_reduce; rw [hy]; rfl
  have hpre : pre = [] := by
    cases pre with
    | nil => rfl
    | cons a pre => simp at hg
  subst hpre
  simp only [List.nil_append, List.cons.injEq] at hg
  obtain ⟨rfl, -⟩ := hg
  simp only [List.flatMap_nil, List.length_nil, zero_add] at hj
  simp only [encDecRef, dif_pos hi]
  rw [← expect_comp (place 0 0 (by omega : 0 + x.targets.length ≤ n) (by omega : 0 + x.enc.length ≤ m)) (place_inj _ _ _ _)]
  congr 1
  funext k
  congr 1
  obtain ⟨y1, y2, h1, h2, h3⟩ := padded_path (lg := lg) (md := ⟨!on, rate⟩) hex hθ ht (aloneInput x) b ⟨rfl, rfl⟩ ⟨rfl, rfl⟩
    (fun i j hij => by simp [b, packRow, pad, aloneInput, hij])
    (fun i j hij => by simp [b, packRow, pad, aloneInput, hij]) f1 f2
    (fun i hi => by
      simp only [b, packRow, pad, List.flatMap_cons, List.flatMap_nil, List.append_nil, List.getD_eq_getElem?_getD]
      rw [List.getElem?_eq_none hi]; rfl)
    (fun i hi => by
      simp only [b, packRow, pad, List.flatMap_cons, List.flatMap_nil, List.append_nil, List.getD_eq_getElem?_getD]
      rw [List.getElem?_eq_none hi]; rfl)
    (alone_text htext) k
  rw [h1, h2]
  exact (h3 ⟨i, hi⟩ j hj.symm (alone_pos hwf _)).symm

/-- C113, the loss: a batch in which examples are packed into rows, in any grouping and order, and the batch with one example in each row, padded
to any lengths, have the same expected loss and z-loss and the same weight sum; with the normalising factors of C96. -/
theorem C113_expected_loss {rate : ℝ} (hex : Underflows ex θ) (hθ : 0 < θ) (ht : TameTrain net rate θ B) (on : Bool) {n m n' m' : Nat}
    (groups : List (List Example)) (hwf : ∀ g ∈ groups, ∀ x ∈ g, x.WF ∧ x.HasText) (hfit : ∀ g ∈ groups, Fits n m g)
    (hfit' : ∀ g ∈ groups, ∀ x ∈ g, Fits n' m' [x]) (weighted : Bool) (lnf : LossWeights.LNF ℝ) (hs : PackingSafe weighted lnf) (smoothing z : ℝ) :
    ∃ (L : (Fin (packedBatch n m weighted groups).rows.length × Site n m d h f N M → Bool) → ℝ × ℝ × ℝ)
      (L' : (Fin (paddedBatch n' m' weighted groups.flatten).rows.length × Site n' m' d h f N M → Bool) → ℝ × ℝ × ℝ),
      (∀ keep, lossFn (encDecLogits ex lg net on rate true) lnf smoothing z (packedBatch n m weighted groups) (fun r s => keep (r, s)) = some (L keep)) ∧
      (∀ keep, lossFn (encDecLogits ex lg net on rate false) lnf smoothing z (paddedBatch n' m' weighted groups.flatten) (fun r s => keep (r, s)) =
        some (L' keep)) ∧
      expect (1 - rate) (fun keep => (L keep).1) = expect (1 - rate) (fun keep => (L' keep).1) ∧
      expect (1 - rate) (fun keep => (L keep).2.1) = expect (1 - rate) (fun keep => (L' keep).2.1) ∧
      ∀ keep keep', (L keep).2.2 = (L' keep').2.2 := by
  have h1 := made_packed (fun g hg x hx => (hwf g hg x hx).1) hfit
  have h2 := made_padded (fun g hg x hx => (hwf g hg x hx).1) hfit'
  obtain ⟨L, a1, a2, a3, a4⟩ := expected_loss h1 weighted (1 - rate) (encDecLogits ex lg net on rate true) (encDecRef ex lg net ⟨!on, rate⟩)
    (fun g hg => encDec_packed hex hθ ht on g (fun x hx => (hwf g hg x hx).1) (fun x hx => (hwf g hg x hx).2) (hfit g hg))
    lnf smoothing z _ _ (weightOf_length weighted lnf) (lnf_eq h1 weighted lnf hs)
  have key := expected_loss h2 weighted (1 - rate) (encDecLogits ex lg net on rate false) (encDecRef ex lg net ⟨!on, rate⟩)
    (fun g hg => by
      obtain ⟨x, hx, rfl⟩ := List.mem_map.1 hg
      obtain ⟨g', hg', hx'⟩ := List.mem_flatten.1 hx
      exact encDec_padded hex hθ ht on x (hwf g' hg' x hx').1 (hwf g' hg' x hx').2 (hfit' g' hg' x hx'))
    lnf smoothing z _ _ (weightOf_length weighted lnf) (lnf_eq h2 weighted lnf hs)
  rw [List.map_map, flatten_singles] at key
  obtain ⟨L', b1, b2, b3, b4⟩ := key
  refine ⟨L, L', a1, b1, a2.trans b2.symm, a3.trans b3.symm, fun k k' => (a4 k).trans (b4 k').symm⟩

/-- C113, the gradient: the expected gradient of the loss is the same for the two batches.  `D keep` is the gradient for the given bits. -/
theorem C113_gradient {P : Type} [NormedAddCommGroup P] [NormedSpace ℝ P] {rate : ℝ} (hex : Underflows ex θ) (hθ : 0 < θ)
    (nets : P → TrainNet d h e f V N M) (p : P) (ht : ∀ᶠ q in nhds p, TameTrain (nets q) rate θ B) (on : Bool) {n m n' m' : Nat}
    (groups : List (List Example)) (hwf : ∀ g ∈ groups, ∀ x ∈ g, x.WF ∧ x.HasText) (hfit : ∀ g ∈ groups, Fits n m g)
    (hfit' : ∀ g ∈ groups, ∀ x ∈ g, Fits n' m' [x]) (weighted : Bool) (lnf : LossWeights.LNF ℝ) (hs : PackingSafe weighted lnf) (smoothing z : ℝ)
    (D : (Fin (packedBatch n m weighted groups).rows.length × Site n m d h f N M → Bool) → P →L[ℝ] ℝ)
    (D' : (Fin (paddedBatch n' m' weighted groups.flatten).rows.length × Site n' m' d h f N M → Bool) → P →L[ℝ] ℝ)
    (hD : ∀ keep, HasFDerivAt (fun q => ((lossFn (encDecLogits ex lg (nets q) on rate true) lnf smoothing z (packedBatch n m weighted groups)
      (fun r s => keep (r, s))).getD (0, 0, 0)).1) (D keep) p)
    (hD' : ∀ keep, HasFDerivAt (fun q => ((lossFn (encDecLogits ex lg (nets q) on rate false) lnf smoothing z
      (paddedBatch n' m' weighted groups.flatten) (fun r s => keep (r, s))).getD (0, 0, 0)).1) (D' keep) p) :
    ∑ keep, prob (1 - rate) keep • D keep = ∑ keep, prob (1 - rate) keep • D' keep := by
  have e1 := HasFDerivAt.fun_sum (u := Finset.univ) fun keep _ => (hD keep).const_mul (prob (1 - rate) keep)
  have e2 := HasFDerivAt.fun_sum (u := Finset.univ) fun keep _ => (hD' keep).const_mul (prob (1 - rate) keep)
  refine (e1.congr_of_eventuallyEq ?_).unique e2
  filter_upwards [ht] with q hq
  obtain ⟨L, L', a1, a2, a3, -⟩ := C113_expected_loss (lg := lg) (n := n) (m := m) (n' := n') (m' := m') hex hθ hq on groups hwf hfit hfit' weighted
    lnf hs smoothing z
  simp only [a1, a2, Option.getD_some]
  exact a3.symm

/-! What is dropped has no effect. -/

/-- Dropout is on. -/
def Spec.On (md : Mode) : Prop := md.deterministic = false ∧ 0 < md.rate ∧ md.rate < 1

theorem drop_off {md : Mode} (h : On md) (x : ℝ) : md.drop false x = 0 := by
  obtain ⟨h1, h2, h3⟩ := h
  simp only [Mode.drop, dropout, h1, Bool.false_eq_true, or_false, if_false]
  rw [if_neg h2.ne']; simp

theorem factor_off {md : Mode} (h : On md) : md.factor false = 0 := by
  obtain ⟨h1, h2, h3⟩ := h
  simp [Mode.factor, multiplier, h1, h2]

theorem attention_off {L : Nat} (p : Attn d h e) (xq : Vec d) (xkv : Fin L → Vec d) (mask : Option (Fin L → Int)) (bias : Option (Fin h → Fin L → ℝ)) :
    attention ex p (fun _ _ => 0) xq xkv mask bias = fun _ => 0 := by
  funext i
  simp [attention, projectOut]

theorem attention_zero {L : Nat} (p : Attn d h e) (factor : Fin h → Fin L → ℝ) (xq : Vec d) (mask : Option (Fin L → Int)) (bias : Option (Fin h → Fin L → ℝ)) :
    attention ex p factor xq (fun _ _ => 0) mask bias = fun _ => 0 := by
  funext i
  simp [attention, projectOut, project]

theorem mlp_off (p : Mlp d f) (x : Vec d) : mlp p (fun _ _ => 0) x = fun _ => 0 := by
  funext i
  simp [mlp, dense]

theorem drop_fun {md : Mode} (hm : On md) {κ : Type} {k : κ → Bool} (hk : ∀ c, k c = false) : (fun c => md.drop (k c)) = fun _ _ => 0 := by
  funext c x; rw [hk]; exact drop_off hm x

theorem drop_zero (md : Mode) (k : Bool) : md.drop k 0 = 0 := by
  simp [Mode.drop, dropout]

theorem mlpBlock_off {md : Mode} (hm : On md) (eps : ℝ) (scale : Vec d) (p p' : Mlp d f) {k1 : Fin f → Bool} {k2 : Fin d → Bool}
    (hk : (∀ c, k1 c = false) ∨ ∀ c, k2 c = false) (x : Vec d) :
    mlpBlock eps scale p (fun c => md.drop (k1 c)) (fun c => md.drop (k2 c)) x = mlpBlock eps scale p' (fun c => md.drop (k1 c)) (fun c => md.drop (k2 c)) x := by
  funext c
  rcases hk with hk | hk
  · simp only [mlpBlock, drop_fun hm hk, mlp_off]
  · simp only [mlpBlock, hk, drop_off hm]

theorem toLogits_off {md : Mode} (hm : On md) (eps : ℝ) (norm : Vec d) (table : Kernel V d) (head : Head d V) {k : Fin d → Bool} (hk : ∀ c, k c = false)
    (y : Vec d) : toLogits eps norm table head (fun c => md.drop (k c)) y = fun _ => 0 := by
  rw [drop_fun hm hk]
  cases head <;> funext v <;> simp [toLogits, attendEmbedding, dense]

/-- C113, the dropout before the logits: if all features are dropped, all logits are 0. -/
theorem C113_dropped_output (hm : On md) {n m : Nat} (b : Input n m) (k : Site n m d h f N M → Bool) (hk : ∀ c, k (.decOutput c) = false)
    (y : Fin n → Vec V) (hy : apply ex lg net md k b = some y) (i : Fin n) (v : Fin V) : y i v = 0 := by
  simp only [apply, Option.bind_eq_some_iff, Option.map_eq_some_iff] at hy
  obtain ⟨_, _, _, _, _, _, rfl⟩ := hy
  simp only [decoder, toLogits_off hm _ _ _ _ hk]

/-- C113, the dropout of the embedded inputs: if all features are dropped, the inputs do not matter. -/
theorem C113_dropped_input (hm : On md) {n m : Nat} (b : Input n m) (inputs : Row n) (k : Site n m d h f N M → Bool) (hk : ∀ c, k (.decInput c) = false) :
    apply ex lg net md k { b with decInputs := inputs } = apply ex lg net md k b := by
  have e : ∀ en X Y, decoder ex lg net md k en inputs X Y = decoder ex lg net md k en b.decInputs X Y := fun en X Y => by
    funext i; simp only [decoder, hk, drop_off hm]
  simp only [apply, e]

theorem self_foldl (hm : On md) {n m : Nat} (k : Site n m d h f N M → Bool)
    (hk : ∀ l, (∀ hd j, k (.decSelf l hd j) = false) ∨ ∀ c, k (.decPostSelf l c) = false) (mask : Option (Mask n n)) (cross : Option (Mask n m))
    (en : Fin m → Vec d) (i : Fin n) : ∀ (ls : List (Fin M)) (x1 x2 : Fin n → Vec d), x1 i = x2 i →
      ls.foldl (decLayer ex lg net md k mask cross en) x1 i = ls.foldl (decLayer ex lg net md k mask cross en) x2 i := by
  intro ls
  induction ls with
  | nil => intro x1 x2 hx; exact hx
  | cons l ls ih =>
    intro x1 x2 hx
    rw [List.foldl_cons, List.foldl_cons]
    refine ih _ _ ?_
    rcases hk l with h1 | h1
    · simp only [decLayer, h1, factor_off hm, attention_off, hx]
    · simp only [decLayer, h1, drop_off hm, hx]

/-- C113, the two dropouts of the self-attention: if in every layer the weights or the result are dropped, the logits of a position depend on no
other decoder input. -/
theorem C113_dropped_self (hm : On md) {n m : Nat} (b : Input n m) (inputs : Row n) (i : Fin n) (hi : inputs i = b.decInputs i)
    (k : Site n m d h f N M → Bool) (hk : ∀ l, (∀ hd j, k (.decSelf l hd j) = false) ∨ ∀ c, k (.decPostSelf l c) = false)
    (y y' : Fin n → Vec V) (hy : apply ex lg net md k b = some y) (hy' : apply ex lg net md k { b with decInputs := inputs } = some y') :
    y i = y' i := by
  simp only [apply, Option.bind_eq_some_iff, Option.map_eq_some_iff] at hy hy'
  obtain ⟨A, hA, Mk, hM, C, hC, rfl⟩ := hy
  obtain ⟨A', hA', M', hM', C', hC', rfl⟩ := hy'
  cases Option.some.inj (hA.symm.trans hA')
  cases Option.some.inj (hM.symm.trans hM')
  cases Option.some.inj (hC.symm.trans hC')
  simp only [decoder]
  congr 1
  exact self_foldl hm k hk _ _ _ i _ _ _ (by simp only [hi])

/-- C113, the dropouts of the attention to the inputs: if in every layer the weights or the result are dropped, or if the encoder's output is
dropped, the logits do not depend on the encoder's input. -/
theorem C113_dropped_cross (hm : On md) {n m : Nat} (b : Input n m) (tokens : Row m) (k : Site n m d h f N M → Bool)
    (hk : (∀ l, (∀ hd j, k (.decCross l hd j) = false) ∨ ∀ c, k (.decPostCross l c) = false) ∨ ∀ j c, k (.encOutput j c) = false)
    (y y' : Fin n → Vec V) (hy : apply ex lg net md k b = some y) (hy' : apply ex lg net md k { b with encTokens := tokens } = some y') :
    y = y' := by
  simp only [apply, Option.bind_eq_some_iff, Option.map_eq_some_iff] at hy hy'
  obtain ⟨A, hA, Mk, hM, C, hC, rfl⟩ := hy
  obtain ⟨A', hA', M', hM', C', hC', rfl⟩ := hy'
  cases Option.some.inj (hM.symm.trans hM')
  have : decLayer ex lg net md k (some Mk) (some C) (encoder ex lg net md k b.encTokens (some A)) =
      decLayer ex lg net md k (some Mk) (some C') (encoder ex lg net md k tokens (some A')) := by
    funext x l i
    rcases hk with hk | hk
    · rcases hk l with h1 | h1
      · simp only [decLayer, h1, factor_off hm, attention_off]
      · simp only [decLayer, h1, drop_off hm]
    · have e : ∀ t X, encoder ex lg net md k t X = fun _ _ => 0 := fun t X => by
        funext j c; simp only [encoder, hk, drop_off hm]
      simp only [decLayer, e, attention_zero]
  funext i
  simp only [decoder, this]

/-- C113, the dropouts of the MLP: if in every decoder layer the intermediate features or the result are dropped, and the same for the encoder
layers, the parameters of the MLPs do not matter. -/
theorem C113_dropped_mlp (hm : On md) {n m : Nat} (b : Input n m) (mlps : Fin N → Mlp d f) (mlps' : Fin M → Mlp d f) (k : Site n m d h f N M → Bool)
    (hk : ∀ l, (∀ c, k (.encInner l c) = false) ∨ ∀ c, k (.encPostMlp l c) = false)
    (hk' : ∀ l, (∀ c, k (.decInner l c) = false) ∨ ∀ c, k (.decPostMlp l c) = false) :
    apply ex lg { net with enc := fun l => { net.enc l with mlp := mlps l }, dec := fun l => { net.dec l with mlp := mlps' l } } md k b =
      apply ex lg net md k b := by
  have h1 : ∀ X, encLayer ex lg { net with enc := fun l => { net.enc l with mlp := mlps l }, dec := fun l => { net.dec l with mlp := mlps' l } } md k X =
      encLayer ex lg net md k X := by
    intro X; funext x l i
    simp only [encLayer, block]
    exact mlpBlock_off hm _ _ _ _ (hk l) _
  have h2 : ∀ X Y en, decLayer ex lg { net with enc := fun l => { net.enc l with mlp := mlps l }, dec := fun l => { net.dec l with mlp := mlps' l } }
      md k X Y en = decLayer ex lg net md k X Y en := by
    intro X Y en; funext x l i
    simp only [decLayer]
    exact mlpBlock_off hm _ _ _ _ (hk' l) _
  have h3 : ∀ t X, encoder ex lg { net with enc := fun l => { net.enc l with mlp := mlps l }, dec := fun l => { net.dec l with mlp := mlps' l } } md k t X =
      encoder ex lg net md k t X := by
    intro t X; funext i c
    simp only [encoder, h1]
  have h4 : ∀ en t X Y, decoder ex lg { net with enc := fun l => { net.enc l with mlp := mlps l }, dec := fun l => { net.dec l with mlp := mlps' l } }
      md k en t X Y = decoder ex lg net md k en t X Y := by
    intro en t X Y; funext i
    simp only [decoder, h2]
  simp only [apply, h3, h4]

theorem enc_foldl (hm : On md) {n m : Nat} (k : Site n m d h f N M → Bool)
    (hk : ∀ l, (∀ hd j, k (.encAttention l hd j) = false) ∨ ∀ c, k (.encPost l c) = false) (mask : Option (Mask m m)) (i : Fin m) :
    ∀ (ls : List (Fin N)) (x1 x2 : Fin m → Vec d), x1 i = x2 i →
      ls.foldl (encLayer ex lg net md k mask) x1 i = ls.foldl (encLayer ex lg net md k mask) x2 i := by
  intro ls
  induction ls with
  | nil => intro x1 x2 hx; exact hx
  | cons l ls ih =>
    intro x1 x2 hx
    rw [List.foldl_cons, List.foldl_cons]
    refine ih _ _ ?_
    rcases hk l with h1 | h1
    · simp only [encLayer, block, h1, factor_off hm, attention_off, hx]
    · simp only [encLayer, block, h1, drop_off hm, hx]

/-- C113, the encoder's attention and its embedded inputs: if in every layer the weights or the result of the attention are dropped, the output
of a position depends on its own token only; if the features of the embedded inputs are dropped, the tokens do not matter. -/
theorem C113_dropped_encoder (hm : On md) {n m : Nat} (tokens tokens' : Row m) (mask : Mask m m) (k : Site n m d h f N M → Bool) :
    (∀ i, (∀ l, (∀ hd j, k (.encAttention l hd j) = false) ∨ ∀ c, k (.encPost l c) = false) → tokens i = tokens' i →
      encoder ex lg net md k tokens (some mask) i = encoder ex lg net md k tokens' (some mask) i) ∧
    ((∀ c, k (.encInput c) = false) → encoder ex lg net md k tokens (some mask) = encoder ex lg net md k tokens' (some mask)) := by
  refine ⟨fun i hk hi => ?_, fun hk => ?_⟩
  · funext c
    simp only [encoder]
    rw [enc_foldl hm k hk (some mask) i (List.finRange N) _ (fun i c => md.drop (k (.encInput c)) (embed net.table (tokens' i) c)) (by simp only [hi])]
  · funext i c; simp only [encoder, hk, drop_off hm]

/-- The network without its layers. -/
def Spec.noLayers (net : TrainNet d h e f V N M) : TrainNet d h e f V 0 0 :=
  { eps := net.eps, table := net.table, encRel := net.encRel, enc := fun l => l.elim0, encNorm := net.encNorm, decRel := net.decRel,
    dec := fun l => l.elim0, decNorm := net.decNorm, head := net.head }

/-- C113: if in all layers the results of attention and MLP are dropped, the layers do nothing: the logits are those of a network without layers,
which gets the same bits for the inputs and before the logits. -/
theorem C113_dropped_layers (hm : On md) {n m : Nat} (b : Input n m) (k : Site n m d h f N M → Bool) (hk : ∀ l c, k (.encPost l c) = false)
    (hk1 : ∀ l c, k (.encPostMlp l c) = false) (hk2 : ∀ l c, k (.decPostSelf l c) = false) (hk3 : ∀ l c, k (.decPostCross l c) = false)
    (hk4 : ∀ l c, k (.decPostMlp l c) = false) (k' : Site n m d h f 0 0 → Bool) (hi : ∀ c, k' (.encInput c) = k (.encInput c))
    (hi1 : ∀ j c, k' (.encOutput j c) = k (.encOutput j c)) (hi2 : ∀ c, k' (.decInput c) = k (.decInput c)) (hi3 : ∀ c, k' (.decOutput c) = k (.decOutput c)) :
    apply ex lg net md k b =
      apply ex lg (noLayers net) md k' b ∧
    ∀ tokens mask, encoder ex lg net md k tokens mask =
      encoder ex lg (noLayers net)
        md k' tokens mask := by
  have fold : ∀ {α β : Type} (F : α → β → α) (ls : List β) (x : α), (∀ a b, F a b = a) → ls.foldl F x = x := by
    intro α β F ls
    induction ls with
    | nil => intro x _; rfl
    | cons l ls ih => intro x hF; rw [List.foldl_cons, hF]; exact ih x hF
  have h1 : ∀ mask x l, encLayer ex lg net md k mask x l = x := by
    intro mask x l; funext i c
    simp only [encLayer, block, mlpBlock, hk, hk1, drop_off hm, zero_add]
  have h2 : ∀ mask cross en x l, decLayer ex lg net md k mask cross en x l = x := by
    intro mask cross en x l; funext i c
    simp only [decLayer, mlpBlock, hk2, hk3, hk4, drop_off hm, zero_add]
  have h3 : ∀ tokens mask, encoder ex lg net md k tokens mask =
      encoder ex lg (noLayers net)
        md k' tokens mask := by
    intro tokens mask; funext i c
    simp only [encoder, hi, hi1, List.finRange_zero, List.foldl_nil, noLayers]
    rw [fold _ _ _ (h1 mask)]
  refine ⟨?_, h3⟩
  have h4 : ∀ en t X Y, decoder ex lg net md k en t X Y =
      decoder ex lg (noLayers net)
        md k' en t X Y := by
    intro en t X Y; funext i
    simp only [decoder, hi2, hi3, List.finRange_zero, List.foldl_nil, noLayers]
    rw [fold _ _ _ (h2 X Y en)]
  simp only [apply, h3, h4]

theorem toLogits_sum (hm : On md) (eps : ℝ) (norm : Vec d) (table : Kernel V d) (head : Head d V) (k : Fin d → Bool) (y : Vec d) (v : Fin V) :
    toLogits eps norm table head (fun c => md.drop (k c)) y v =
      ∑ c, toLogits eps norm table head (fun c' => md.drop (k c' && decide (c' = c))) y v := by
  have e : ∀ c c' x, md.drop (k c' && decide (c' = c)) x = if c' = c then md.drop (k c') x else 0 := by
    intro c c' x
    by_cases hc : c' = c
    · simp [hc]
    · simp only [hc, decide_false, Bool.and_false, if_false]; exact drop_off hm x
  cases head
  · simp only [toLogits, attendEmbedding, e, ite_mul, zero_mul, Finset.sum_ite_eq', Finset.mem_univ, if_true, Finset.sum_div]
  · simp only [toLogits, dense, e, ite_mul, zero_mul, Finset.sum_ite_eq', Finset.mem_univ, if_true]

/-- C113, the dropout before the logits is after the last layer norm: the logits are the sum, over the features that are kept, of the logits
found when this feature alone is kept. -/
theorem C113_output_sum (hm : On md) {n m : Nat} (b : Input n m) (k : Site n m d h f N M → Bool) (only : Fin d → Site n m d h f N M → Bool)
    (ho : ∀ c c', only c (.decOutput c') = (k (.decOutput c') && decide (c' = c))) (hs : ∀ c s, (∀ c', s ≠ .decOutput c') → only c s = k s)
    (y : Fin n → Vec V) (hy : apply ex lg net md k b = some y) (ys : Fin d → Fin n → Vec V) (hys : ∀ c, apply ex lg net md (only c) b = some (ys c))
    (i : Fin n) (v : Fin V) : y i v = ∑ c, ys c i v := by
  simp only [apply, Option.bind_eq_some_iff, Option.map_eq_some_iff] at hy
  obtain ⟨A, hA, Mk, hM, C, hC, rfl⟩ := hy
  have key : ∀ c, ys c i v = toLogits net.eps net.decNorm net.table net.head (fun c' => md.drop (k (.decOutput c') && decide (c' = c)))
      ((List.finRange M).foldl (decLayer ex lg net md k (some Mk) (some C) (encoder ex lg net md k b.encTokens (some A)))
        (fun i c => md.drop (k (.decInput c)) (embed net.table (b.decInputs i) c)) i) v := by
    intro c
    have := hys c
    simp only [apply, hA, hM, hC, Option.bind_some, Option.map_some, Option.some.injEq] at this
    rw [← this]
    have e1 : ∀ X, encLayer ex lg net md (only c) X = encLayer ex lg net md k X := by
      intro X; funext x l i
      simp only [encLayer]
      congr 1 <;> · funext c1; first
        | (funext c2; rw [hs]; simp)
        | (rw [hs]; simp)
    have e2 : ∀ X Y en, decLayer ex lg net md (only c) X Y en = decLayer ex lg net md k X Y en := by
      intro X Y en; funext x l i
      have q1 : ∀ l hd j, only c (.decSelf l hd j) = k (.decSelf l hd j) := fun l hd j => hs _ _ (by simp)
      have q2 : ∀ l j, only c (.decPostSelf l j) = k (.decPostSelf l j) := fun l j => hs _ _ (by simp)
      have q3 : ∀ l hd j, only c (.decCross l hd j) = k (.decCross l hd j) := fun l hd j => hs _ _ (by simp)
      have q4 : ∀ l j, only c (.decPostCross l j) = k (.decPostCross l j) := fun l j => hs _ _ (by simp)
      have q5 : ∀ l j, only c (.decInner l j) = k (.decInner l j) := fun l j => hs _ _ (by simp)
      have q6 : ∀ l j, only c (.decPostMlp l j) = k (.decPostMlp l j) := fun l j => hs _ _ (by simp)
      simp only [decLayer, q1, q2, q3, q4, q5, q6]
    have e3 : ∀ t X, encoder ex lg net md (only c) t X = encoder ex lg net md k t X := by
      intro t X; funext i c'
      have q1 : ∀ j c', only c (.encOutput j c') = k (.encOutput j c') := fun j c' => hs _ _ (by simp)
      have q2 : ∀ c', only c (.encInput c') = k (.encInput c') := fun c' => hs _ _ (by simp)
      simp only [encoder, e1, q1, q2]
    have q : ∀ c', only c (.decInput c') = k (.decInput c') := fun c' => hs _ _ (by simp)
    simp only [decoder, e2, e3, ho, q]
  simp only [key, decoder]
  exact toLogits_sum hm _ _ _ _ (fun c => k (.decOutput c)) _ _

/-- C113: the training loss enables dropout if there is a `dropout_rng`, and only then: with one, logits are 0 where all features are dropped; without
one, the bits do not matter. -/
theorem C113_enabled {rate : ℝ} (h0 : 0 < rate) (h1 : rate < 1) {n m : Nat} (packed : Bool) (r : PackedLoss.TrainRow n m) (k k' : Site n m d h f N M → Bool) :
    ((∀ c, k (.decOutput c) = false) → ∀ y, encDecLogits ex lg net true rate packed k r = some y → ∀ i v, y i v = 0) ∧
    encDecLogits ex lg net false rate packed k r = encDecLogits ex lg net false rate packed k' r :=
  ⟨fun hk y hy i v => C113_dropped_output ⟨rfl, h0, h1⟩ _ k hk y hy i v, by
    unfold encDecLogits
    rw [C113_off (Or.inl rfl), C113_off (Or.inl rfl)]⟩

example : On ⟨false, 0.1⟩ := ⟨rfl, by norm_num, by norm_num⟩

/-- The small model of C93, with dropout. -/
noncomputable def demo : TrainNet 1 1 1 1 2 1 1 where
  eps := 1e-6
  table := fun _ _ => 1
  encRel := fun _ b => if b = 0 then 1 else 0
  enc := fun _ => ⟨fun _ => 1, ⟨fun _ _ => 2, fun _ _ => 3, fun _ _ => 1, fun _ _ => 1⟩, fun _ => 1, ⟨(fun x => max x 0, fun _ _ => 1), [(id, fun _ _ => 1)], fun _ _ => 1⟩⟩
  encNorm := fun _ => 1
  decRel := fun _ _ => 0
  dec := fun _ => ⟨fun _ => 1, ⟨fun _ _ => 2, fun _ _ => 3, fun _ _ => 1, fun _ _ => 1⟩, fun _ => 1, ⟨fun _ _ => 2, fun _ _ => 3, fun _ _ => 1, fun _ _ => 1⟩, fun _ => 1, ⟨(id, fun _ _ => 1), [], fun _ _ => 1⟩⟩
  decNorm := fun _ => 1
  head := .viaEmbedding

theorem demo_tame : TameTrain demo 0.1 104 7 := by
  refine ⟨demoNet_tame, by norm_num, by norm_num, ?_⟩
  intro l hd
  norm_num [logitBound, reach, demo]

/-- Three examples. -/
def demoGroups : List (List Example) :=
  [[⟨[5, 6], [0, 3], [3, 1], [0, 0], [1, 1]⟩, ⟨[7], [0], [1], [0], [1]⟩], [⟨[8], [0, 2], [2, 1], [0, 0], [0, 1]⟩]]

theorem demoGroups_wf : ∀ g ∈ demoGroups, ∀ x ∈ g, x.WF ∧ x.HasText := demo_wf

/-- Three examples packed into two rows of length 4, or padded, each in a row of length 3; dropout rate 0.1. -/
example : ∃ (L : (Fin (packedBatch 4 3 true demoGroups).rows.length × Site 4 3 1 1 1 1 1 → Bool) → ℝ × ℝ × ℝ)
    (L' : (Fin (paddedBatch 3 5 true demoGroups.flatten).rows.length × Site 3 5 1 1 1 1 1 → Bool) → ℝ × ℝ × ℝ),
    (∀ keep, lossFn (encDecLogits flushed lg demo true 0.1 true) (.special .averagePerSequence) 0 0 (packedBatch 4 3 true demoGroups)
      (fun r s => keep (r, s)) = some (L keep)) ∧
    (∀ keep, lossFn (encDecLogits flushed lg demo true 0.1 false) (.special .averagePerSequence) 0 0 (paddedBatch 3 5 true demoGroups.flatten)
      (fun r s => keep (r, s)) = some (L' keep)) ∧
    expect (1 - 0.1) (fun keep => (L keep).1) = expect (1 - 0.1) (fun keep => (L' keep).1) := by
  obtain ⟨L, L', h1, h2, h3, -⟩ := C113_expected_loss (lg := lg) (n := 4) (m := 3) (n' := 3) (m' := 5) DecoderOnly.flushed_underflows (by norm_num)
    demo_tame true demoGroups demoGroups_wf (by simp [Fits, demoGroups]) (by simp [Fits, demoGroups]) true (.special .averagePerSequence)
    (by simp [PackingSafe]) 0 0
  exact ⟨L, L', h1, h2, h3⟩

/-- Two rows with corresponding bits. -/
example (k : Site 4 3 1 1 1 1 1 → Bool) : SameKeep 1 2 (k ∘ place 1 2 (by omega : 1 + 2 ≤ 4) (by omega : 2 + 1 ≤ 3)) k := place_same _ _ _ _ _

end EncDec

/-! ### The decoder-only network -/

section Lm
open Verif.DecoderOnly.Spec (InPrefix TameLm)
open Verif.DecoderOnly (lmMask)
variable {net : TrainLm d h e f V N}

theorem applyLm_some {n : Nat} (k : LmSite n d h f N → Bool) (b : DecoderOnly.Input n) : ∃ y, applyLm ex lg net md k b = some y := by
  obtain ⟨M, hM, _⟩ := lmMask b
  simp only [applyLm, hM, Option.map_some, Option.some.injEq, exists_eq']

/-- C113 for decoder-only models: without dropout, the network of C95. -/
theorem C113_lm_off (hmd : md.deterministic = true ∨ md.rate = 0) {n : Nat} (k : LmSite n d h f N → Bool) (b : DecoderOnly.Input n) :
    applyLm ex lg net md k b = DecoderOnly.apply ex lg net.toNet b := by
  have e1 : ∀ b : Bool, md.drop b = fun x => x := fun b => funext fun x => drop_det md hmd b x
  simp only [applyLm, DecoderOnly.apply]
  congr 1
  funext mask i
  simp only [e1, TrainLm.toNet, foldl_ofFn]
  have : lmLayer ex lg net md k (some mask) = fun x l => DecoderOnly.layer ex lg net.toNet (some mask) x (net.layers l) := by
    funext x l i
    simp only [lmLayer, block, DecoderOnly.layer, factor_det md hmd, e1, attention_one, mlpBlock_id]
    rfl
  rw [this]; rfl

theorem lm_sim (hex : Underflows ex θ) (hθ : 0 < θ) (ht : TameLm net.toNet θ B) {n1 n2 : Nat} {δ : ℤ} {R : Fin n1 → Fin n2 → Prop}
    {M1 : Mask n1 n1} {M2 : Mask n2 n2} (hc : Corr δ R M1 M2) {k1 : LmSite n1 d h f N → Bool} {k2 : LmSite n2 d h f N → Bool}
    (hk : LmSameKeep δ k1 k2) :
    ∀ (ls : List (Fin N)) (x1 : Fin n1 → Vec d) (x2 : Fin n2 → Vec d), (∀ i j, R i j → x1 i = x2 j) → ∀ i j, R i j →
      ls.foldl (lmLayer ex lg net md k1 (some M1)) x1 i = ls.foldl (lmLayer ex lg net md k2 (some M2)) x2 j := by
  intro ls
  induction ls with
  | nil => intro x1 x2 hx; exact hx
  | cons l ls ih =>
    intro x1 x2 hx
    rw [List.foldl_cons, List.foldl_cons]
    refine ih _ _ ?_
    intro i j hij
    obtain ⟨r, hr, hrB⟩ := ht.layers
    have hl : net.layers l ∈ net.toNet.layers := by simp [TrainLm.toNet]
    have e1 : ∀ c, k1 (.post l c) = k2 (.post l c) := fun c => hk _ _ (.post l c)
    have e2 : ∀ c, k1 (.inner l c) = k2 (.inner l c) := fun c => hk _ _ (.inner l c)
    have e3 : ∀ c, k1 (.postMlp l c) = k2 (.postMlp l c) := fun c => hk _ _ (.postMlp l c)
    simp only [lmLayer, e1, e2, e3]
    refine block_sim hex hθ ht.gap ht.eps hr false hc (net.layers l) (hrB _ hl) _ _ ?_ _ _ _ x1 x2 hx i j hij
    intro hd i j hij
    rw [hk _ _ (.attention l hd i j (hc.off i j hij))]

/-- C113 for decoder-only models: with dropout, the logits of an example depend only on the example and on the bits that belong to its
positions; as C95. -/
theorem C113_lm_same_logits (hex : Underflows ex θ) (hθ : 0 < θ) (ht : TameLm net.toNet θ B) {n1 n2 : Nat} (b1 : DecoderOnly.Input n1)
    (b2 : DecoderOnly.Input n2) (δ t : ℤ) (s1 s2 : Int) (i : Fin n1) (j : Fin n2) (hij : (j.val : ℤ) = i.val + δ) (hit : i.val ≤ t)
    (hd : SameText (fun p => p ≤ t) δ s1 s2 b1.seg b1.targets b1.inputs b2.seg b2.targets b2.inputs)
    (hp : ∀ (p : Fin n1) (q : Fin n2), (q.val : ℤ) = p.val + δ → InSeg b1.seg s1 p → InSeg b2.seg s2 q → p.val ≤ t →
      (InPrefix b1.causal p ↔ InPrefix b2.causal q))
    (hp1 : ∀ p : Fin n1, InSeg b1.seg s1 p → InPrefix b1.causal p → p.val ≤ t)
    (hp2 : ∀ q : Fin n2, InSeg b2.seg s2 q → InPrefix b2.causal q → q.val ≤ t + δ)
    (hi : InSeg b1.seg s1 i) (hti : b1.targets i > 0)
    (k1 : LmSite n1 d h f N → Bool) (k2 : LmSite n2 d h f N → Bool) (hk : LmSameKeep δ k1 k2) :
    ∃ y1 y2, applyLm ex lg net md k1 b1 = some y1 ∧ applyLm ex lg net md k2 b2 = some y2 ∧ y1 i = y2 j := by
  obtain ⟨M1, hM1, sM1⟩ := lmMask b1
  obtain ⟨M2, hM2, sM2⟩ := lmMask b2
  simp only [applyLm, hM1, hM2, Option.map_some, Option.some.injEq, exists_eq_left', exists_and_left]
  let R : Fin n1 → Fin n2 → Prop := fun p q => (q.val : ℤ) = p.val + δ ∧ InSeg b1.seg s1 p ∧ b1.targets p > 0 ∧
    InSeg b2.seg s2 q ∧ b2.targets q > 0 ∧ p.val ≤ t
  have rf : ∀ p : Fin n1, p.val ≤ t → InSeg b1.seg s1 p → b1.targets p > 0 → ∃ q, R p q := fun p hp a b => by
    obtain ⟨j, h1, h2, h3, _⟩ := hd.fwd p hp a b; exact ⟨j, h1, a, b, h2, h3, hp⟩
  have rb : ∀ q : Fin n2, (q.val : ℤ) ≤ t + δ → InSeg b2.seg s2 q → b2.targets q > 0 → ∃ p, R p q := fun q hq a b => by
    obtain ⟨p, h1, h2, h3⟩ := hd.bwd q (by omega) a b; exact ⟨p, h1, h2, h3, a, b, by omega⟩
  have cR : Corr δ R M1 M2 := by
    refine ⟨fun i j h => h.1, fun i j h => ⟨i, (sM1 i i).2 ⟨h.2.2.1, h.2.2.1, Or.inl le_rfl, fun _ _ => rfl⟩⟩, ?_, ?_⟩
    · rintro p q ⟨h1, h2, h3, h4, h5, h6⟩ k hk
      obtain ⟨_, hk2, hki, hk3⟩ := (sM1 p k).1 hk
      have hks : InSeg b1.seg s1 k := fun r hr => by rw [← hk3 r hr]; exact h2 r hr
      have hkt : (k.val : ℤ) ≤ t := by
        rcases hki with hki | ⟨_, hki⟩
        · rw [Fin.le_def] at hki; omega
        · exact hp1 k hks hki
      obtain ⟨l, hl⟩ := rf k hkt hks hk2
      refine ⟨l, hl, (sM2 q l).2 ⟨h5, hl.2.2.2.2.1, ?_, fun r hr => by rw [h4 r hr, hl.2.2.2.1 r hr]⟩⟩
      have hl1 := hl.1
      rcases hki with hki | ⟨hkp, hki⟩
      · left; rw [Fin.le_def] at hki ⊢; omega
      · exact Or.inr ⟨(hp p q h1 h2 h4 h6).1 hkp, (hp k l hl1 hks hl.2.2.2.1 hkt).1 hki⟩
    · rintro p q ⟨h1, h2, h3, h4, h5, h6⟩ l hl
      obtain ⟨_, hl2, hli, hl3⟩ := (sM2 q l).1 hl
      have hls : InSeg b2.seg s2 l := fun r hr => by rw [← hl3 r hr]; exact h4 r hr
      have hlt : (l.val : ℤ) ≤ t + δ := by
        rcases hli with hli | ⟨_, hli⟩
        · rw [Fin.le_def] at hli; omega
        · exact hp2 l hls hli
      obtain ⟨k, hk⟩ := rb l hlt hls hl2
      refine ⟨k, hk, (sM1 p k).2 ⟨h3, hk.2.2.1, ?_, fun r hr => by rw [h2 r hr, hk.2.1 r hr]⟩⟩
      have hk1 := hk.1
      rcases hli with hli | ⟨hkp, hki⟩
      · left; rw [Fin.le_def] at hli ⊢; omega
      · exact Or.inr ⟨(hp p q h1 h2 h4 h6).2 hkp, (hp k l hk1 hk.2.1 hls (by omega)).2 hki⟩
  have inR : ∀ p q, R p q → b1.inputs p = b2.inputs q := by
    rintro p q ⟨h1, h2, h3, h4, h5, h6⟩
    obtain ⟨j', h1', _, _, h4'⟩ := hd.fwd p h6 h2 h3
    have : q = j' := by ext; omega
    rw [this, h4']
  have hR : R i j := by
    obtain ⟨j', hj'⟩ := rf i hit hi hti
    have : j = j' := by have := hj'.1; ext; omega
    rw [this]; exact hj'
  have e1 : ∀ c, k1 (.output c) = k2 (.output c) := fun c => hk _ _ (.output c)
  simp only [e1]
  congr 1
  refine lm_sim hex hθ ht cR hk (List.finRange N) _ _ (fun p q hpq => ?_) i j hR
  funext c
  rw [hk _ _ (.input c), inR p q hpq]

theorem LmMoved.same {n : Nat} (s t : LmSite n d h f N) (hm : LmMoved 0 s t) : s = t := by
  cases hm <;> first
    | rfl
    | (rename_i hk; congr 1; ext; omega)

/-- C113 for decoder-only models, causality in training: with any dropout, from the end of the prefix on (position t), changing later inputs and
targets does not change the logits; of the targets only which of them are padding matters. -/
theorem C113_lm_causal (hex : Underflows ex θ) (hθ : 0 < θ) (ht : TameLm net.toNet θ B) {n : Nat} (b : DecoderOnly.Input n) (inputs targets : Row n)
    (i t : Fin n) (hit : i ≤ t) (hti : b.targets i > 0)
    (hpre : ∀ q, (∀ ds, b.seg = some ds → ds q = ds i) → InPrefix b.causal q → q ≤ t)
    (hsame : ∀ j ≤ t, inputs j = b.inputs j ∧ (targets j > 0 ↔ b.targets j > 0)) (keep : LmSite n d h f N → Bool) :
    ∃ y1 y2, applyLm ex lg net md keep b = some y1 ∧ applyLm ex lg net md keep { b with inputs := inputs, targets := targets } = some y2 ∧
      y1 i = y2 i := by
  obtain ⟨s, hs, hs'⟩ : ∃ s, InSeg b.seg s i ∧ ∀ q, InSeg b.seg s q → ∀ ds, b.seg = some ds → ds q = ds i := by
    cases hds : b.seg with
    | none => exact ⟨0, (fun r hr => by cases hr), (fun q _ ds h => by cases h)⟩
    | some ds => exact ⟨ds i, (fun r hr => by cases hr; rfl), (fun q hq ds' h => by cases h; exact hq ds rfl)⟩
  refine C113_lm_same_logits hex hθ ht b { b with inputs := inputs, targets := targets } 0 t.val s s i i (by simp)
    (by rw [Fin.le_def] at hit; omega) ?_ ?_ ?_ ?_ hs hti keep keep (fun s t hst => by rw [LmMoved.same s t hst])
  · constructor
    · intro j hj hj1 hj2
      have hle : j ≤ t := by rw [Fin.le_def]; simpa using hj
      exact ⟨j, by simp, hj1, (hsame j hle).2.2 hj2, (hsame j hle).1⟩
    · intro j hj hj1 hj2
      have hle : j ≤ t := by rw [Fin.le_def]; simpa using hj
      exact ⟨j, by simp, hj1, (hsame j hle).2.1 hj2⟩
  · intro p q hpq _ _ _
    have : q = p := by ext; omega
    rw [this]
  · intro p hp1 hp2
    have := hpre p (hs' p hp1) hp2
    rw [Fin.le_def] at this; omega
  · intro p hp1 hp2
    have := hpre p (hs' p hp1) hp2
    rw [Fin.le_def] at this; omega

/-- Where the bits of a row are found among those of a longer row which holds it from position a on. -/
def lmPlace {n0 n : Nat} (a : Nat) (hn : a + n0 ≤ n) : LmSite n0 d h f N → LmSite n d h f N
  | .input c => .input c
  | .attention l hd k => .attention l hd ⟨a + k.val, by omega⟩
  | .post l c => .post l c
  | .inner l c => .inner l c
  | .postMlp l c => .postMlp l c
  | .output c => .output c

theorem lmPlace_inj {n0 n : Nat} (a : Nat) (hn : a + n0 ≤ n) : Function.Injective (lmPlace (d := d) (h := h) (f := f) (N := N) a hn) := by
  intro s t hst
  cases s <;> cases t <;> simp_all [lmPlace, Fin.ext_iff]

theorem lmPlace_same {n0 n : Nat} (a : Nat) (hn : a + n0 ≤ n) (k : LmSite n d h f N → Bool) : LmSameKeep a (k ∘ lmPlace a hn) k := by
  intro s t hst
  cases hst <;> simp only [Function.comp, lmPlace] <;> rename_i hk <;> congr <;> omega

theorem lm_packed_path (hex : Underflows ex θ) (hθ : 0 < θ) (ht : TameLm net.toNet θ B) {n0 n : Nat} (alone : DecoderOnly.Input n0)
    (packed : DecoderOnly.Input n) (h2 : alone.seg = none) (ds : Row n) (h4 : packed.seg = some ds) (s : Int) (a : Nat)
    (hds : ∀ j, ds j = s ↔ a ≤ j.val ∧ j.val < a + n0) (hn : a + n0 ≤ n)
    (htok : ∀ (i : Fin n0) (j : Fin n), j.val = a + i.val → packed.targets j = alone.targets i ∧ packed.inputs j = alone.inputs i ∧
      (InPrefix alone.causal i ↔ InPrefix packed.causal j)) (k : LmSite n d h f N → Bool) :
    ∃ y1 y2, applyLm ex lg net md (k ∘ lmPlace a hn) alone = some y1 ∧ applyLm ex lg net md k packed = some y2 ∧
      ∀ (i : Fin n0) (j : Fin n), j.val = a + i.val → alone.targets i > 0 → y1 i = y2 j := by
  have inalone : ∀ i, InSeg alone.seg 0 i := fun i r hr => by rw [h2] at hr; cases hr
  have hd : SameText (fun p => p ≤ (n0 : ℤ)) a 0 s alone.seg alone.targets alone.inputs packed.seg packed.targets packed.inputs := by
    constructor
    · intro i _ _ hi
      have hi' := i.isLt
      have hk := htok i ⟨a + i.val, by omega⟩ rfl
      refine ⟨⟨a + i.val, by omega⟩, by push_cast; omega, ?_, by rw [hk.1]; exact hi, hk.2.1⟩
      intro r hr
      rw [h4] at hr; cases hr
      exact (hds _).2 ⟨by simp, by simp⟩
    · intro j _ hj htj
      obtain ⟨hj1, hj2⟩ := (hds j).1 (hj ds h4)
      refine ⟨⟨j.val - a, by omega⟩, by push_cast; omega, inalone _, ?_⟩
      rw [← (htok ⟨j.val - a, by omega⟩ j (by simp; omega)).1]; exact htj
  obtain ⟨z1, hz1⟩ := applyLm_some (ex := ex) (lg := lg) (net := net) (md := md) (k ∘ lmPlace a hn) alone
  obtain ⟨z2, hz2⟩ := applyLm_some (ex := ex) (lg := lg) (net := net) (md := md) k packed
  refine ⟨z1, z2, hz1, hz2, fun i j hij hti => ?_⟩
  obtain ⟨y1, y2, e1, e2, hy⟩ := C113_lm_same_logits (lg := lg) hex hθ ht alone packed a n0 0 s i j (by omega) (by have := i.isLt; omega) hd
    (fun p q hpq _ _ _ => (htok p q (by omega)).2.2) (fun p _ _ => by have := p.isLt; omega)
    (fun q hq _ => by have := ((hds q).1 (hq ds h4)).2; omega) (inalone i) hti _ _ (lmPlace_same a hn k)
  rw [hz1] at e1; rw [hz2] at e2
  cases e1; cases e2
  exact hy

/-- The expectation of a function of the logits of the i-th target of an example on its own. -/
noncomputable def lmRef (ex : ℝ → ℝ) (lg : ℕ → ℝ) (net : TrainLm d h e f V N) (md : Mode) (bidirectional : Bool) (x : Example) (i : Nat)
    (F : Vec V → ℝ) : ℝ :=
  if hi : i < x.targets.length then
    expect (1 - md.rate) fun k => F (((applyLm ex lg net md k (aloneLm bidirectional x)).getD fun _ _ => 0) ⟨i, hi⟩)
  else 0

theorem lm_packed {rate : ℝ} (hex : Underflows ex θ) (hθ : 0 < θ) (ht : TameLm net.toNet θ B) (on bidirectional : Bool) {n m : Nat} (g : List Example)
    (hwf : ∀ x ∈ g, x.WF) (hfit : Fits n m g) :
    AgreeE (n := n) (m := m) (1 - rate) (lmLogits ex lg net on rate bidirectional true) (lmRef ex lg net ⟨!on, rate⟩ bidirectional) g := by
  let b : DecoderOnly.Input n :=
    ⟨(packRow n m g).decInputs, (packRow n m g).decTargets, KVCache.maybeCausal bidirectional (packRow n m g).causal, some (packRow n m g).decSeg⟩
  refine ⟨fun k => (applyLm ex lg net ⟨!on, rate⟩ k b).getD fun _ _ => 0, fun k => ?_, fun pre x post hg i j hi hj F => ?_⟩
  · obtain ⟨y, hy⟩ := applyLm_some (ex := ex) (lg := lg) (net := net) (md := ⟨!on, rate⟩) k b
    have : lmLogits ex lg net on rate bidirectional true k (packRow n m g) = applyLm ex lg net ⟨!on, rate⟩ k b := rfl
    rw [this]; beta_reduce; rw [hy]; rfl
  have hx : x ∈ g := by rw [hg]; simp
  have hlin : (pre.flatMap Example.inputs).length = (pre.flatMap Example.targets).length :=
    flatMap_length_eq _ _ _ fun z hz => (hwf z (by rw [hg]; simp [hz])).inputs
  have hlca : (pre.flatMap Example.causal).length = (pre.flatMap Example.targets).length :=
    flatMap_length_eq _ _ _ fun z hz => (hwf z (by rw [hg]; simp [hz])).causal
  have hn := (row_length hg Example.targets).trans hfit.1
  simp only [lmRef, dif_pos hi]
  rw [← expect_comp (lmPlace _ hn) (lmPlace_inj _ hn)]
  congr 1
  funext k
  congr 1
  obtain ⟨y1, y2, h1, h2, h3⟩ := lm_packed_path (lg := lg) (md := ⟨!on, rate⟩) hex hθ ht (aloneLm bidirectional x) b
    rfl _ rfl (1 + pre.length) (pre.flatMap Example.targets).length
    (fun j => by
      simp only [packRow, pad]
      rw [hg, ids_spec _ pre x post 1 (by decide), sum_lengths]) hn
    (fun i j hij => by
      simp only [b, packRow, aloneLm, inPrefix_maybe]
      simp only [pad, hij]
      have e1 := getD_flatMap Example.targets 0 pre x post i.val i.isLt
      have e2 := getD_flatMap Example.inputs 0 pre x post i.val (by rw [(hwf x hx).inputs]; exact i.isLt)
      have e3 := getD_flatMap Example.causal 0 pre x post i.val (by rw [(hwf x hx).causal]; exact i.isLt)
      rw [← hg] at e1 e2 e3
      rw [hlin] at e2
      rw [hlca] at e3
      exact ⟨e1, e2, by rw [e3]⟩) k
  rw [h1, h2]
  exact (h3 ⟨i, hi⟩ j hj (alone_pos (hwf x hx) _)).symm

theorem lm_padded {rate : ℝ} (hex : Underflows ex θ) (hθ : 0 < θ) (ht : TameLm net.toNet θ B) (on bidirectional : Bool) {n m : Nat} (x : Example)
    (hwf : x.WF) (hfit : Fits n m [x]) :
    AgreeE (n := n) (m := m) (1 - rate) (lmLogits ex lg net on rate bidirectional false) (lmRef ex lg net ⟨!on, rate⟩ bidirectional) [x] := by
  let b : DecoderOnly.Input n := ⟨(packRow n m [x]).decInputs, (packRow n m [x]).decTargets, KVCache.maybeCausal bidirectional (packRow n m [x]).causal, none⟩
  have f1 : x.targets.length ≤ n := by simpa using hfit.1
  refine ⟨fun k => (applyLm ex lg net ⟨!on, rate⟩ k b).getD fun _ _ => 0, fun k => ?_, fun pre x' post hg i j hi hj F => ?_⟩
  · obtain ⟨y, hy⟩ := applyLm_some (ex := ex) (lg := lg) (net := net) (md := ⟨!on, rate⟩) k b
    have : lmLogits ex lg net on rate bidirectional false k (packRow n m [x]) = applyLm ex lg net ⟨!on, rate⟩ k b := rfl
    rw [this]; beta_reduce; rw [hy]; rfl
  have hpre : pre = [] := by
    cases pre with
    | nil => rfl
    | cons a pre => simp at hg
  subst hpre
  simp only [List.nil_append, List.cons.injEq] at hg
  obtain ⟨rfl, -⟩ := hg
  simp only [List.flatMap_nil, List.length_nil, zero_add] at hj
  have hnone : ∀ {k : Nat} (s : Int) (q : Fin k), InSeg (none : Option (Row k)) s q := fun s q r hr => by cases hr
  have hbeyond : ∀ (l : List Int) (q : Nat), l.getD q 0 ≠ 0 → q < l.length := by
    intro l q hq
    by_contra hc
    apply hq
    rw [List.getD_eq_getElem?_getD, List.getElem?_eq_none (by omega)]; rfl
  simp only [lmRef, dif_pos hi]
  rw [← expect_comp (lmPlace 0 (by omega : 0 + x.targets.length ≤ n)) (lmPlace_inj _ _)]
  congr 1
  funext k
  congr 1
  obtain ⟨y1, y2, h1, h2, h3⟩ := C113_lm_same_logits (lg := lg) (md := ⟨!on, rate⟩) hex hθ ht (aloneLm bidirectional x) b 0 x.targets.length 0 0 ⟨i, hi⟩ j
    (by simp [hj]) (by simp only; omega)
    ⟨fun p _ _ hp => ⟨⟨p.val, by have := p.isLt; omega⟩, by simp, hnone _ _, by
        simpa [b, packRow, pad, aloneLm] using hp, by simp [b, packRow, pad, aloneLm]⟩,
      fun q _ _ hq => by
        have hlt : q.val < x.targets.length := by
          refine hbeyond _ _ ?_
          simp only [b, packRow, pad, List.flatMap_cons, List.flatMap_nil, List.append_nil] at hq
          omega
        exact ⟨⟨q.val, hlt⟩, by simp, hnone _ _, by simpa [b, packRow, pad, aloneLm] using hq⟩⟩
    (fun p q hpq _ _ _ => by
      have : q.val = p.val := by omega
      simp [b, packRow, pad, aloneLm, inPrefix_maybe, this])
    (fun p _ _ => by have := p.isLt; omega)
    (fun q _ hq => by
      simp only [b, packRow, inPrefix_maybe, pad, List.flatMap_cons, List.flatMap_nil, List.append_nil] at hq
      have := hbeyond _ _ hq.2
      rw [hwf.causal] at this
      omega)
    (hnone _ _) (alone_pos hwf _) _ _
    (by have := lmPlace_same (d := d) (h := h) (f := f) (N := N) 0 (by omega : 0 + x.targets.length ≤ n) k; simpa using this)
  rw [h1, h2]
  exact h3.symm

/-- C113 for decoder-only models, the loss: packed and padded batches have the same expected loss and z-loss and the same weight sum. -/
theorem C113_lm_expected_loss {rate : ℝ} (hex : Underflows ex θ) (hθ : 0 < θ) (ht : TameLm net.toNet θ B) (on bidirectional : Bool) {n m n' m' : Nat}
    (groups : List (List Example)) (hwf : ∀ g ∈ groups, ∀ x ∈ g, x.WF) (hfit : ∀ g ∈ groups, Fits n m g)
    (hfit' : ∀ g ∈ groups, ∀ x ∈ g, Fits n' m' [x]) (weighted : Bool) (lnf : LossWeights.LNF ℝ) (hs : PackingSafe weighted lnf) (smoothing z : ℝ) :
    ∃ (L : (Fin (packedBatch n m weighted groups).rows.length × LmSite n d h f N → Bool) → ℝ × ℝ × ℝ)
      (L' : (Fin (paddedBatch n' m' weighted groups.flatten).rows.length × LmSite n' d h f N → Bool) → ℝ × ℝ × ℝ),
      (∀ keep, lossFn (lmLogits ex lg net on rate bidirectional true) lnf smoothing z (packedBatch n m weighted groups) (fun r s => keep (r, s)) =
        some (L keep)) ∧
      (∀ keep, lossFn (lmLogits ex lg net on rate bidirectional false) lnf smoothing z (paddedBatch n' m' weighted groups.flatten)
        (fun r s => keep (r, s)) = some (L' keep)) ∧
      expect (1 - rate) (fun keep => (L keep).1) = expect (1 - rate) (fun keep => (L' keep).1) ∧
      expect (1 - rate) (fun keep => (L keep).2.1) = expect (1 - rate) (fun keep => (L' keep).2.1) ∧
      ∀ keep keep', (L keep).2.2 = (L' keep').2.2 := by
  have h1 := made_packed hwf hfit
  have h2 := made_padded hwf hfit'
  obtain ⟨L, a1, a2, a3, a4⟩ := expected_loss h1 weighted (1 - rate) (lmLogits ex lg net on rate bidirectional true)
    (lmRef ex lg net ⟨!on, rate⟩ bidirectional) (fun g hg => lm_packed hex hθ ht on bidirectional g (hwf g hg) (hfit g hg))
    lnf smoothing z _ _ (weightOf_length weighted lnf) (lnf_eq h1 weighted lnf hs)
  have key := expected_loss h2 weighted (1 - rate) (lmLogits ex lg net on rate bidirectional false) (lmRef ex lg net ⟨!on, rate⟩ bidirectional)
    (fun g hg => by
      obtain ⟨x, hx, rfl⟩ := List.mem_map.1 hg
      obtain ⟨g', hg', hx'⟩ := List.mem_flatten.1 hx
      exact lm_padded hex hθ ht on bidirectional x (hwf g' hg' x hx') (hfit' g' hg' x hx'))
    lnf smoothing z _ _ (weightOf_length weighted lnf) (lnf_eq h2 weighted lnf hs)
  rw [List.map_map, flatten_singles] at key
  obtain ⟨L', b1, b2, b3, b4⟩ := key
  exact ⟨L, L', a1, b1, a2.trans b2.symm, a3.trans b3.symm, fun k k' => (a4 k).trans (b4 k').symm⟩

/-- C113 for decoder-only models, the dropouts one by one: if all features are dropped before the logits, these are 0; if the features of the
embedded inputs are dropped, the inputs do not matter; if in every layer the weights or the result of the attention are dropped, the logits of a
position depend on no other input; if in every layer the intermediate features or the result of the MLP are dropped, its parameters do not
matter. -/
theorem C113_lm_dropped (hm : On md) {n : Nat} (b : DecoderOnly.Input n) (inputs : Row n) (mlps : Fin N → Mlp d f) (k : LmSite n d h f N → Bool)
    (y : Fin n → Vec V) (hy : applyLm ex lg net md k b = some y) (y' : Fin n → Vec V) (hy' : applyLm ex lg net md k { b with inputs := inputs } = some y')
    (i : Fin n) :
    ((∀ c, k (.output c) = false) → ∀ v, y i v = 0) ∧
    ((∀ c, k (.input c) = false) → y = y') ∧
    ((∀ l, (∀ hd j, k (.attention l hd j) = false) ∨ ∀ c, k (.post l c) = false) → inputs i = b.inputs i → y i = y' i) ∧
    ((∀ l, (∀ c, k (.inner l c) = false) ∨ ∀ c, k (.postMlp l c) = false) →
      applyLm ex lg { net with layers := fun l => { net.layers l with mlp := mlps l } } md k b = some y) := by
  simp only [applyLm, Option.map_eq_some_iff] at hy hy'
  obtain ⟨A, hA, rfl⟩ := hy
  obtain ⟨A', hA', rfl⟩ := hy'
  cases Option.some.inj (hA.symm.trans hA')
  refine ⟨fun hk v => ?_, fun hk => ?_, fun hk hi => ?_, fun hk => ?_⟩
  · beta_reduce; rw [toLogits_off hm _ _ _ _ hk]
  · simp only [hk, drop_off hm]
  · beta_reduce
    congr 1
    have : ∀ (ls : List (Fin N)) (x1 x2 : Fin n → Vec d), x1 i = x2 i →
        ls.foldl (lmLayer ex lg net md k (some A)) x1 i = ls.foldl (lmLayer ex lg net md k (some A)) x2 i := by
      intro ls
      induction ls with
      | nil => intro x1 x2 hx; exact hx
      | cons l ls ih =>
        intro x1 x2 hx
        rw [List.foldl_cons, List.foldl_cons]
        refine ih _ _ ?_
        rcases hk l with h1 | h1
        · simp only [lmLayer, block, h1, factor_off hm, attention_off, hx]
        · simp only [lmLayer, block, h1, drop_off hm, hx]
    exact this _ _ _ (by simp only [hi])
  · have h1 : lmLayer ex lg { net with layers := fun l => { net.layers l with mlp := mlps l } } md k (some A) = lmLayer ex lg net md k (some A) := by
      funext x l i
      simp only [lmLayer, block]
      exact mlpBlock_off hm _ _ _ _ (hk l) _
    simp only [applyLm, h1, hA, Option.map_some]

/-- The network without its layers. -/
def Spec.noLmLayers (net : TrainLm d h e f V N) : TrainLm d h e f V 0 :=
  { eps := net.eps, table := net.table, rel := net.rel, layers := fun l => l.elim0, norm := net.norm, head := net.head }

/-- C113 for decoder-only models: if in all layers the results of attention and MLP are dropped, the layers do nothing. -/
theorem C113_lm_dropped_layers (hm : On md) {n : Nat} (b : DecoderOnly.Input n) (k : LmSite n d h f N → Bool) (hk : ∀ l c, k (.post l c) = false)
    (hk1 : ∀ l c, k (.postMlp l c) = false) (k' : LmSite n d h f 0 → Bool) (hi : ∀ c, k' (.input c) = k (.input c))
    (hi1 : ∀ c, k' (.output c) = k (.output c)) :
    applyLm ex lg net md k b = applyLm ex lg (noLmLayers net) md k' b := by
  have fold : ∀ {α β : Type} (F : α → β → α) (ls : List β) (x : α), (∀ a b, F a b = a) → ls.foldl F x = x := by
    intro α β F ls
    induction ls with
    | nil => intro x _; rfl
    | cons l ls ih => intro x hF; rw [List.foldl_cons, hF]; exact ih x hF
  have h1 : ∀ mask x l, lmLayer ex lg net md k mask x l = x := by
    intro mask x l; funext i c
    simp only [lmLayer, block, mlpBlock, hk, hk1, drop_off hm, zero_add]
  simp only [applyLm]
  congr 1
  funext mask i
  simp only [hi, hi1, List.finRange_zero, List.foldl_nil, noLmLayers]
  rw [fold _ _ _ (h1 (some mask))]

/-- C113 for decoder-only models: dropout is enabled if and only if there is a `dropout_rng`, and the dropout before the logits is after the last
layer norm. -/
theorem C113_lm_enabled {rate : ℝ} (h0 : 0 < rate) (h1 : rate < 1) {n m : Nat} (bidirectional packed : Bool) (r : PackedLoss.TrainRow n m)
    (k k' : LmSite n d h f N → Bool) (only : Fin d → LmSite n d h f N → Bool)
    (ho : ∀ c c', only c (.output c') = (k (.output c') && decide (c' = c))) (hs : ∀ c s, (∀ c', s ≠ .output c') → only c s = k s) :
    (∀ (y : Fin n → Vec V) (ys : Fin d → Fin n → Vec V), lmLogits ex lg net true rate bidirectional packed k r = some y →
      (∀ c, lmLogits ex lg net true rate bidirectional packed (only c) r = some (ys c)) → ∀ i v, y i v = ∑ c, ys c i v) ∧
    ((∀ c, k (.output c) = false) → ∀ y, lmLogits ex lg net true rate bidirectional packed k r = some y → ∀ i v, y i v = 0) ∧
    lmLogits ex lg net false rate bidirectional packed k r = lmLogits ex lg net false rate bidirectional packed k' r := by
  have hm : On ⟨!true, rate⟩ := ⟨rfl, h0, h1⟩
  refine ⟨fun y ys hy hys i v => ?_, fun hk y hy i v => ?_, ?_⟩
  · simp only [lmLogits, applyLm, Option.map_eq_some_iff] at hy hys
    obtain ⟨A, hA, rfl⟩ := hy
    have key : ∀ c, ys c i v = toLogits net.eps net.norm net.table net.head (fun c' => Mode.drop ⟨!true, rate⟩ (k (.output c') && decide (c' = c)))
        ((List.finRange N).foldl (lmLayer ex lg net ⟨!true, rate⟩ k (some A)) (fun i c => Mode.drop ⟨!true, rate⟩ (k (.input c)) (embed net.table (r.decInputs i) c)) i) v := by
      intro c
      obtain ⟨A', hA', hc⟩ := hys c
      cases Option.some.inj (hA.symm.trans hA')
      rw [← hc]
      have e1 : ∀ X, lmLayer ex lg net ⟨!true, rate⟩ (only c) X = lmLayer ex lg net ⟨!true, rate⟩ k X := by
        intro X; funext x l i
        simp only [lmLayer]
        congr 1 <;> · funext c1; first
          | (funext c2; rw [hs]; simp)
          | (rw [hs]; simp)
      have q : ∀ c', only c (.input c') = k (.input c') := fun c' => hs _ _ (by simp)
      simp only [e1, ho, q]
    simp only [key]
    exact toLogits_sum hm _ _ _ _ (fun c => k (.output c)) _ _
  · exact ((C113_lm_dropped hm _ r.decInputs (fun l => (net.layers l).mlp) k y hy y hy i).1 hk v)
  · unfold lmLogits
    rw [C113_lm_off (Or.inl rfl), C113_lm_off (Or.inl rfl)]

/-- The small model of C95, with dropout. -/
noncomputable def demoTrainLm : TrainLm 1 1 1 1 2 1 where
  eps := 1e-6
  table := fun _ _ => 1
  rel := fun _ b => if b = 0 then 1 else 0
  layers := fun _ => ⟨fun _ => 1, ⟨fun _ _ => 2, fun _ _ => 3, fun _ _ => 1, fun _ _ => 1⟩, fun _ => 1, ⟨(fun x => max x 0, fun _ _ => 1), [(id, fun _ _ => 1)], fun _ _ => 1⟩⟩
  norm := fun _ => 1
  head := .viaEmbedding

theorem demoTrainLm_tame : TameLm demoTrainLm.toNet 104 7 := DecoderOnly.demoLm_tame

/-- Three examples packed into two rows, or padded; dropout rate 0.1. -/
example : ∃ (L : (Fin (packedBatch 4 3 true demoGroups).rows.length × LmSite 4 1 1 1 1 → Bool) → ℝ × ℝ × ℝ)
    (L' : (Fin (paddedBatch 3 5 true demoGroups.flatten).rows.length × LmSite 3 1 1 1 1 → Bool) → ℝ × ℝ × ℝ),
    (∀ keep, lossFn (lmLogits flushed lg demoTrainLm true 0.1 true true) (.special .averagePerSequence) 0 0 (packedBatch 4 3 true demoGroups)
      (fun r s => keep (r, s)) = some (L keep)) ∧
    (∀ keep, lossFn (lmLogits flushed lg demoTrainLm true 0.1 true false) (.special .averagePerSequence) 0 0 (paddedBatch 3 5 true demoGroups.flatten)
      (fun r s => keep (r, s)) = some (L' keep)) ∧
    expect (1 - 0.1) (fun keep => (L keep).1) = expect (1 - 0.1) (fun keep => (L' keep).1) := by
  obtain ⟨L, L', h1, h2, h3, -⟩ := C113_lm_expected_loss (rate := 0.1) (lg := lg) (n := 4) (m := 3) (n' := 3) (m' := 5) DecoderOnly.flushed_underflows
    (by norm_num) demoTrainLm_tame true true demoGroups (fun g hg x hx => (demoGroups_wf g hg x hx).1) (by simp [Fits, demoGroups])
    (by simp [Fits, demoGroups]) true (.special .averagePerSequence) (by simp [PackingSafe]) 0 0
  exact ⟨L, L', h1, h2, h3⟩

/-- Changing what follows position 2. -/
example (keep : LmSite 4 1 1 1 1 → Bool) : ∃ y1 y2, applyLm flushed lg demoTrainLm ⟨false, 0.1⟩ keep ⟨![0, 3, 4, 5], ![3, 4, 5, 1], some ![1, 1, 0, 0], none⟩ = some y1 ∧
    applyLm flushed lg demoTrainLm ⟨false, 0.1⟩ keep ⟨![0, 3, 4, 9], ![3, 4, 9, 0], some ![1, 1, 0, 0], none⟩ = some y2 ∧ y1 2 = y2 2 := by
  refine C113_lm_causal (md := ⟨false, 0.1⟩) (lg := lg) DecoderOnly.flushed_underflows (by norm_num) demoTrainLm_tame
    ⟨![0, 3, 4, 5], ![3, 4, 5, 1], some ![1, 1, 0, 0], none⟩ ![0, 3, 4, 9] ![3, 4, 9, 0] 2 2 le_rfl (by decide) ?_ (by decide) keep
  rintro q _ ⟨c, hc, hq⟩
  cases hc
  revert hq; revert q; decide

end Lm

end Verif.Dropout
