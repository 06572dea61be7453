import Verif.Model.DecoderOnly
import Verif.Props.T5Decode
import Verif.Props.KVCache
import Verif.Props.Score
/-
Property C95: the decoder-only network gives an example the same logits alone and packed, and generates after a prefilled prompt with the
logits of the forward pass.
-/
namespace Verif.DecoderOnly
open Verif.Masks Verif.Transformer Verif.KVCache Verif.Transformer.Spec
open Verif.T5Decode (cacheOf)

namespace Spec

/-- As `Transformer.Spec.Tame`: no attention logit is of the order of the mask bias. -/
structure TameLm {d h e f V : Nat} (net : LmNet d h e f V) (θ B : ℝ) : Prop where
  eps : 0 ≤ net.eps
  gap : 2 * B + θ ≤ 1e10
  layers : ∃ r, (∀ hd b, |net.rel hd b| ≤ r) ∧ ∀ l ∈ net.layers, ∀ hd, logitBound l.attention l.preAttention l.preAttention r hd ≤ B

/-- Position j is in the part of the row with bidirectional attention. -/
def InPrefix {n : Nat} (causal : Option (Row n)) (j : Fin n) : Prop := ∃ c, causal = some c ∧ c j ≠ 0

end Spec
open Spec

variable {d h e f V : Nat} {ex : ℝ → ℝ} {lg : ℕ → ℝ} {net : LmNet d h e f V} {θ B : ℝ}

/-! ### Rows that correspond -/

theorem layers_sim (hex : Underflows ex θ) (hθ : 0 < θ) (ht : TameLm net θ B) {n1 n2 : Nat} {δ : ℤ} {R : Fin n1 → Fin n2 → Prop}
    {M1 : Mask n1 n1} {M2 : Mask n2 n2} (hc : Corr δ R M1 M2) (l : EncLayer d h e f) (hl : l ∈ net.layers)
    (x1 : Fin n1 → Vec d) (x2 : Fin n2 → Vec d) (hx : ∀ i j, R i j → x1 i = x2 j) (i : Fin n1) (j : Fin n2) (hij : R i j) :
    layer ex lg net (some M1) x1 l i = layer ex lg net (some M2) x2 l j := by
  have hgap := ht.gap
  obtain ⟨r, hr, hrB⟩ := ht.layers
  simp only [layer, Option.map_some]
  rw [← hx i j hij]
  have ha : Transformer.attention ex l.attention (layerNorm net.eps l.preAttention (x1 i)) (fun j => layerNorm net.eps l.preAttention (x1 j))
        (some (M1 i)) (some (relBias lg net.rel false n1 i)) =
      Transformer.attention ex l.attention (layerNorm net.eps l.preAttention (x1 i)) (fun j => layerNorm net.eps l.preAttention (x2 j))
        (some (M2 j)) (some (relBias lg net.rel false n2 j)) := by
    refine attention_sim ex θ B hex hgap (by linarith) _ _ R (Corr.inj hc.off).1 (Corr.inj hc.off).2 _ _ _ _ _ _ ?_ ?_
      (hc.some i j hij) (hc.fwd i j hij) (hc.bwd i j hij) ?_ ?_
    · intro hd k
      exact (raw_le net.eps ht.eps _ _ _ _ _ (some (relBias lg net.rel false n1 i)) r
        (fun hd k => relBias_le lg _ r hr _ _ _ _ _) hd k).trans (hrB l hl hd)
    · intro hd k
      exact (raw_le net.eps ht.eps _ _ _ _ _ (some (relBias lg net.rel false n2 j)) r
        (fun hd k => relBias_le lg _ r hr _ _ _ _ _) hd k).trans (hrB l hl hd)
    · intro k l' hkl _; rw [hx k l' hkl]
    · intro hd k l' hkl
      exact relBias_shift lg net.rel false i k j l' δ (hc.off _ _ hij) (hc.off _ _ hkl) hd
  rw [ha]

theorem stack_sim (hex : Underflows ex θ) (hθ : 0 < θ) (ht : TameLm net θ B) {n1 n2 : Nat} {δ : ℤ} {R : Fin n1 → Fin n2 → Prop}
    {M1 : Mask n1 n1} {M2 : Mask n2 n2} (hc : Corr δ R M1 M2) :
    ∀ (ls : List (EncLayer d h e f)), (∀ l ∈ ls, l ∈ net.layers) → ∀ (x1 : Fin n1 → Vec d) (x2 : Fin n2 → Vec d),
      (∀ i j, R i j → x1 i = x2 j) → ∀ i j, R i j →
      ls.foldl (layer ex lg net (some M1)) x1 i = ls.foldl (layer ex lg net (some M2)) x2 j := by
  intro ls
  induction ls with
  | nil => intro _ x1 x2 hx; exact hx
  | cons l ls ih =>
    intro hl x1 x2 hx
    rw [List.foldl_cons, List.foldl_cons]
    exact ih (fun l' h' => hl l' (List.mem_cons_of_mem _ h')) _ _
      (layers_sim hex hθ ht hc l (hl l (List.mem_cons_self ..)) x1 x2 hx)

theorem prefix_pair {n : Nat} (causal : Option (Row n)) (i j : Fin n) :
    (∃ c, causal = some c ∧ c i ≠ 0 ∧ c j ≠ 0) ↔ InPrefix causal i ∧ InPrefix causal j := by
  unfold InPrefix
  constructor
  · rintro ⟨c, h1, h2, h3⟩; exact ⟨⟨c, h1, h2⟩, c, h1, h3⟩
  · rintro ⟨⟨c, h1, h2⟩, c', h1', h3⟩
    rw [h1] at h1'; cases h1'
    exact ⟨c, h1, h2, h3⟩

theorem lmMask {n : Nat} (b : Input n) : ∃ M, makeDecoderMask b.targets b.causal b.seg = some M ∧
    ∀ i j, M i j > 0 ↔ b.targets i > 0 ∧ b.targets j > 0 ∧ (j ≤ i ∨ InPrefix b.causal i ∧ InPrefix b.causal j) ∧
      ∀ s, b.seg = some s → s i = s j := by
  obtain ⟨M, hM, hs⟩ := C11_decoder_mask b.targets b.causal b.seg
  refine ⟨M, hM, fun i j => ?_⟩
  obtain ⟨h01, h1⟩ := hs i j
  have e1 : M i j > 0 ↔ M i j = 1 := by rcases h01 with h | h <;> rw [h] <;> simp
  rw [e1, h1, ← prefix_pair]
  rfl

theorem apply_some {n : Nat} (b : Input n) : ∃ y, apply ex lg net b = some y := by
  obtain ⟨M, hM, _⟩ := lmMask b
  exact ⟨fun i => toLogits net (net.layers.foldl (layer ex lg net (some M)) (fun i => embed net.table (b.inputs i)) i),
    by simp only [apply, hM, Option.map_some]⟩

/-- C95: the logits of an example depend only on the example and, from the end of its bidirectional prefix on, only on what comes before.
Two rows of any lengths hold the same text up to position t, which is at or after the position i in question and the end of the prefix;
possibly at different places, among other examples, and with any padding. -/
theorem C95_same_logits (hex : Underflows ex θ) (hθ : 0 < θ) (ht : TameLm net θ B) {n1 n2 : Nat} (b1 : Input n1) (b2 : Input n2)
    (δ t : ℤ) (s1 s2 : Int) (i : Fin n1) (j : Fin n2) (hij : (j.val : ℤ) = i.val + δ) (hit : i.val ≤ t)
    (hd : SameText (fun p => p ≤ t) δ s1 s2 b1.seg b1.targets b1.inputs b2.seg b2.targets b2.inputs)
    (hp : ∀ (p : Fin n1) (q : Fin n2), (q.val : ℤ) = p.val + δ → InSeg b1.seg s1 p → InSeg b2.seg s2 q → p.val ≤ t →
      (InPrefix b1.causal p ↔ InPrefix b2.causal q))
    (hp1 : ∀ p : Fin n1, InSeg b1.seg s1 p → InPrefix b1.causal p → p.val ≤ t)
    (hp2 : ∀ q : Fin n2, InSeg b2.seg s2 q → InPrefix b2.causal q → q.val ≤ t + δ)
    (hi : InSeg b1.seg s1 i) (hti : b1.targets i > 0) :
    ∃ y1 y2, apply ex lg net b1 = some y1 ∧ apply ex lg net b2 = some y2 ∧ y1 i = y2 j := by
  obtain ⟨M1, hM1, sM1⟩ := lmMask b1
  obtain ⟨M2, hM2, sM2⟩ := lmMask b2
  refine ⟨fun i => toLogits net (net.layers.foldl (layer ex lg net (some M1)) (fun i => embed net.table (b1.inputs i)) i),
    fun i => toLogits net (net.layers.foldl (layer ex lg net (some M2)) (fun i => embed net.table (b2.inputs i)) i),
    by simp only [apply, hM1, Option.map_some], by simp only [apply, hM2, Option.map_some], ?_⟩
  let R : Fin n1 → Fin n2 → Prop := fun p q => (q.val : ℤ) = p.val + δ ∧ InSeg b1.seg s1 p ∧ b1.targets p > 0 ∧
    InSeg b2.seg s2 q ∧ b2.targets q > 0 ∧ p.val ≤ t
  have rf : ∀ p : Fin n1, p.val ≤ t → InSeg b1.seg s1 p → b1.targets p > 0 → ∃ q, R p q := fun p hp a b => by
    obtain ⟨j, h1, h2, h3, _⟩ := hd.fwd p hp a b; exact ⟨j, h1, a, b, h2, h3, hp⟩
  have rb : ∀ q : Fin n2, (q.val : ℤ) ≤ t + δ → InSeg b2.seg s2 q → b2.targets q > 0 → ∃ p, R p q := fun q hq a b => by
    obtain ⟨p, h1, h2, h3⟩ := hd.bwd q (by omega) a b; exact ⟨p, h1, h2, h3, a, b, by omega⟩
  have cR : Corr δ R M1 M2 := by
    refine ⟨fun i j h => h.1, fun i j h => ⟨i, (sM1 i i).2 ⟨h.2.2.1, h.2.2.1, Or.inl le_rfl, fun _ _ => rfl⟩⟩, ?_, ?_⟩
    · rintro p q ⟨h1, h2, h3, h4, h5, h6⟩ k hk
      obtain ⟨_, hk2, hki, hk3⟩ := (sM1 p k).1 hk
      have hks : InSeg b1.seg s1 k := fun r hr => by rw [← hk3 r hr]; exact h2 r hr
      have hkt : (k.val : ℤ) ≤ t := by
        rcases hki with hki | ⟨_, hki⟩
        · rw [Fin.le_def] at hki; omega
        · exact hp1 k hks hki
      obtain ⟨l, hl⟩ := rf k hkt hks hk2
      refine ⟨l, hl, (sM2 q l).2 ⟨h5, hl.2.2.2.2.1, ?_, fun r hr => by rw [h4 r hr, hl.2.2.2.1 r hr]⟩⟩
      have hl1 := hl.1
      rcases hki with hki | ⟨hkp, hki⟩
      · left; rw [Fin.le_def] at hki ⊢; omega
      · exact Or.inr ⟨(hp p q h1 h2 h4 h6).1 hkp, (hp k l hl1 hks hl.2.2.2.1 hkt).1 hki⟩
    · rintro p q ⟨h1, h2, h3, h4, h5, h6⟩ l hl
      obtain ⟨_, hl2, hli, hl3⟩ := (sM2 q l).1 hl
      have hls : InSeg b2.seg s2 l := fun r hr => by rw [← hl3 r hr]; exact h4 r hr
      have hlt : (l.val : ℤ) ≤ t + δ := by
        rcases hli with hli | ⟨_, hli⟩
        · rw [Fin.le_def] at hli; omega
        · exact hp2 l hls hli
      obtain ⟨k, hk⟩ := rb l hlt hls hl2
      refine ⟨k, hk, (sM1 p k).2 ⟨h3, hk.2.2.1, ?_, fun r hr => by rw [h2 r hr, hk.2.1 r hr]⟩⟩
      have hk1 := hk.1
      rcases hli with hli | ⟨hkp, hki⟩
      · left; rw [Fin.le_def] at hli ⊢; omega
      · exact Or.inr ⟨(hp p q h1 h2 h4 h6).2 hkp, (hp k l hk1 hk.2.1 hls (by omega)).2 hki⟩
  have inR : ∀ p q, R p q → b1.inputs p = b2.inputs q := by
    rintro p q ⟨h1, h2, h3, h4, h5, h6⟩
    obtain ⟨j', h1', _, _, h4'⟩ := hd.fwd p h6 h2 h3
    have : q = j' := by ext; omega
    rw [this, h4']
  have hR : R i j := by
    obtain ⟨j', hj'⟩ := rf i hit hi hti
    have : j = j' := by have := hj'.1; ext; omega
    rw [this]; exact hj'
  beta_reduce
  congr 1
  exact stack_sim hex hθ ht cR net.layers (fun _ h => h) _ _ (fun p q hpq => by rw [inR p q hpq]) i j hR

/-- C95, packing: an example alone in its row and as segment s of a packed row, at positions a, a+1, …, has the same logits at every target
token; with a bidirectional prefix or without. -/
theorem C95_packed (hex : Underflows ex θ) (hθ : 0 < θ) (ht : TameLm net θ B) {n0 n : Nat} (alone : Input n0) (packed : Input n)
    (h2 : alone.seg = none) (ds : Row n) (h4 : packed.seg = some ds) (s : Int) (a : Nat)
    (hds : ∀ j, ds j = s ↔ a ≤ j.val ∧ j.val < a + n0) (hn : a + n0 ≤ n)
    (htok : ∀ (i : Fin n0) (j : Fin n), j.val = a + i.val → packed.targets j = alone.targets i ∧ packed.inputs j = alone.inputs i ∧
      (InPrefix alone.causal i ↔ InPrefix packed.causal j)) :
    ∃ y1 y2, apply ex lg net alone = some y1 ∧ apply ex lg net packed = some y2 ∧
      ∀ (i : Fin n0) (j : Fin n), j.val = a + i.val → alone.targets i > 0 → y1 i = y2 j := by
  have inalone : ∀ i, InSeg alone.seg 0 i := fun i r hr => by rw [h2] at hr; cases hr
  have hd : SameText (fun p => p ≤ (n0 : ℤ)) a 0 s alone.seg alone.targets alone.inputs packed.seg packed.targets packed.inputs := by
    constructor
    · intro i _ _ hi
      have hi' := i.isLt
      have hk := htok i ⟨a + i.val, by omega⟩ rfl
      refine ⟨⟨a + i.val, by omega⟩, by push_cast; omega, ?_, by rw [hk.1]; exact hi, hk.2.1⟩
      intro r hr
      rw [h4] at hr; cases hr
      exact (hds _).2 ⟨by simp, by simp⟩
    · intro j _ hj htj
      obtain ⟨hj1, hj2⟩ := (hds j).1 (hj ds h4)
      refine ⟨⟨j.val - a, by omega⟩, by push_cast; omega, inalone _, ?_⟩
      rw [← (htok ⟨j.val - a, by omega⟩ j (by simp; omega)).1]; exact htj
  obtain ⟨z1, hz1⟩ := apply_some (ex := ex) (lg := lg) (net := net) alone
  obtain ⟨z2, hz2⟩ := apply_some (ex := ex) (lg := lg) (net := net) packed
  refine ⟨z1, z2, hz1, hz2, fun i j hij hti => ?_⟩
  obtain ⟨y1, y2, e1, e2, hy⟩ := C95_same_logits (lg := lg) hex hθ ht alone packed a n0 0 s i j (by omega) (by have := i.isLt; omega) hd
    (fun p q hpq _ _ _ => (htok p q (by omega)).2.2) (fun p _ _ => by have := p.isLt; omega)
    (fun q hq _ => by have := ((hds q).1 (hq ds h4)).2; omega) (inalone i) hti
  rw [hz1] at e1; rw [hz2] at e2
  cases e1; cases e2
  exact hy

/-- C95, causality: from the end of the prefix on (position t), changing later inputs and targets does not change the logits; of the targets
only which of them are padding matters. -/
theorem C95_causal (hex : Underflows ex θ) (hθ : 0 < θ) (ht : TameLm net θ B) {n : Nat} (b : Input n) (inputs targets : Row n)
    (i t : Fin n) (hit : i ≤ t) (hti : b.targets i > 0)
    (hpre : ∀ q, (∀ ds, b.seg = some ds → ds q = ds i) → InPrefix b.causal q → q ≤ t)
    (hsame : ∀ j ≤ t, inputs j = b.inputs j ∧ (targets j > 0 ↔ b.targets j > 0)) :
    ∃ y1 y2, apply ex lg net b = some y1 ∧ apply ex lg net { b with inputs := inputs, targets := targets } = some y2 ∧ y1 i = y2 i := by
  obtain ⟨s, hs⟩ : ∃ s, InSeg b.seg s i := by
    cases hds : b.seg with
    | none => exact ⟨0, fun r hr => by cases hr⟩
    | some ds => exact ⟨ds i, fun r hr => by cases hr; rfl⟩
  have hpre' : ∀ q, InSeg b.seg s q → InPrefix b.causal q → q ≤ t := fun q hq => hpre q fun ds hds => by rw [hq ds hds, hs ds hds]
  refine C95_same_logits hex hθ ht b { b with inputs := inputs, targets := targets } 0 t.val s s i i (by simp) (by rw [Fin.le_def] at hit; omega)
    ?_ ?_ ?_ ?_ hs hti
  · constructor
    · intro j hj hj1 hj2
      have hle : j ≤ t := by rw [Fin.le_def]; omega
      exact ⟨j, by simp, hj1, (hsame j hle).2.2 hj2, (hsame j hle).1⟩
    · intro j hj hj1 hj2
      have hle : j ≤ t := by rw [Fin.le_def]; omega
      exact ⟨j, by simp, hj1, (hsame j hle).2.1 hj2⟩
  · intro p q hpq _ _ _
    have : p = q := by ext; omega
    rw [this]
  · intro p hp hp'
    have := hpre' p hp hp'
    rw [Fin.le_def] at this; omega
  · intro q hq hq'
    have := hpre' q hq hq'
    rw [Fin.le_def] at this; omega

/-! ### Decoding after a prompt -/

noncomputable def cachesAt (ex : ℝ → ℝ) (lg : ℕ → ℝ) (net : LmNet d h e f V) {n : Nat} (mask : Mask n n) :
    List (EncLayer d h e f) → (Fin n → Vec d) → Nat → List (EncLayer d h e f × Cache h e n)
  | [], _, _ => []
  | l :: ls, x, i => (l, cacheOf n net.eps l.attention l.preAttention x i) :: cachesAt ex lg net mask ls (layer ex lg net (some mask) x l) i

theorem stackStep_spec (hex : Underflows ex θ) (hθ : 0 < θ) (ht : TameLm net θ B) {n : Nat} (mask : Mask n n) (i : Fin n)
    (hmask : ∀ j, mask i j > 0 ↔ j.val ≤ i.val) (ls : List (EncLayer d h e f)) : (∀ l ∈ ls, l ∈ net.layers) → ∀ x : Fin n → Vec d,
    stackStep ex lg net (cachesAt ex lg net mask ls x i.val) (x i) =
      (ls.foldl (layer ex lg net (some mask)) x i, cachesAt ex lg net mask ls x (i.val + 1)) := by
  induction ls with
  | nil => intro _ x; rfl
  | cons l ls ih =>
    intro hl x
    obtain ⟨r, hr, hrB⟩ := ht.layers
    have hgap := ht.gap
    have hself := T5Decode.selfStep_spec (lg := lg) hex hgap (by linarith) ht.eps le_rfl l.attention l.preAttention net.rel r hr
      (hrB l (hl l (List.mem_cons_self ..))) (einsumRow n fun hd i j => RelPos.bias lg (net.rel hd) false 32 i j) mask x i hmask
      (fun hd j => einsumRow_eq n (fun hd i j => RelPos.bias lg (net.rel hd) false 32 i j) i.val i.isLt hd j)
    have hstep : layerStep ex lg net l (cacheOf n net.eps l.attention l.preAttention x i.val) (x i) =
        (layer ex lg net (some mask) x l i, cacheOf n net.eps l.attention l.preAttention x (i.val + 1)) := by
      simp only [layerStep, hself, layer, Option.map_some]
    simp only [cachesAt, stackStep, hstep]
    rw [ih fun l' h' => hl l' (List.mem_cons_of_mem _ h')]
    rfl

theorem prefill_spec (hex : Underflows ex θ) (hθ : 0 < θ) (ht : TameLm net θ B) {n : Nat} (p : Fin n) (M M' : Mask n n)
    (hM : ∀ i j, i ≤ p → (M i j > 0 ↔ M' i j > 0)) (hM' : ∀ i j, i ≤ p → M' i j > 0 → j ≤ p) (hself : ∀ i, i ≤ p → M i i > 0)
    (ls : List (EncLayer d h e f)) : (∀ l ∈ ls, l ∈ net.layers) → ∀ x y : Fin n → Vec d, (∀ i, i ≤ p → x i = y i) →
    prefill ex lg net (some M) p.val ls x = cachesAt ex lg net M' ls y p.val := by
  have hc : Corr 0 (fun i j : Fin n => i = j ∧ i ≤ p) M M' := by
    refine ⟨fun i j h => by rw [h.1]; simp, fun i j h => ⟨i, hself i h.2⟩, ?_, ?_⟩
    · rintro i j ⟨rfl, hi⟩ k hk
      have := (hM i k hi).1 hk
      exact ⟨k, ⟨rfl, hM' i k hi this⟩, this⟩
    · rintro i j ⟨rfl, hi⟩ k hk
      exact ⟨k, ⟨rfl, hM' i k hi hk⟩, (hM i k hi).2 hk⟩
  induction ls with
  | nil => intro _ x y hxy; rfl
  | cons l ls ih =>
    intro hl x y hxy
    simp only [prefill, cachesAt]
    rw [ih (fun l' h' => hl l' (List.mem_cons_of_mem _ h')) _ (layer ex lg net (some M') y l) (fun i hi =>
      layers_sim hex hθ ht hc l (hl l (List.mem_cons_self ..)) x y (by rintro i j ⟨rfl, hi⟩; exact hxy i hi) i i ⟨rfl, hi⟩)]
    congr 2
    simp only [prefillCache, cacheOf, Cache.mk.injEq, and_true]
    constructor <;> funext hd e j <;> by_cases hj : j.val < p.val
    · rw [if_pos hj, dif_pos ⟨hj, j.isLt⟩, hxy j (show j.val ≤ p.val by omega)]; ring
    · rw [if_neg hj, dif_neg (by omega)]; ring
    · rw [if_pos hj, dif_pos ⟨hj, j.isLt⟩, hxy j (show j.val ≤ p.val by omega)]; ring
    · rw [if_neg hj, dif_neg (by omega)]; ring

/-- C95, prediction: after a prompt of p tokens, with bidirectional attention over it or without, the target part of the inputs is not seen, the
initial index is p, and feeding the tokens from there on gives at every position the logits of the forward pass on prompt and tokens. -/
theorem C95_prefill (hex : Underflows ex θ) (hθ : 0 < θ) (ht : TameLm net θ B) {n : Nat} (bidirectional : Bool) (inputs targets causal : Row n)
    (p : Fin n) (hp : Prompt inputs causal p) :
    ∃ toks logits out, predict ex lg net bidirectional inputs causal = (toks, p.val, logits) ∧
      (∀ j, toks j = if j ≤ p then inputs j else 0) ∧
      apply ex lg net ⟨inputs, targets, maybeCausal bidirectional causal, none⟩ = some out ∧
      ∀ t, p ≤ t → (∀ j ≤ t, targets j > 0) → (logits ((List.ofFn inputs).drop p.val))[t.val - p.val]? = some (out t) := by
  obtain ⟨M, hM, hspec⟩ := mask_spec targets (maybeCausal bidirectional causal)
  obtain ⟨P, hP, hPspec⟩ := mask_spec causal (maybeCausal bidirectional causal)
  have hlen := inputsLength_prompt inputs causal p hp
  have hca : ∀ j, causal j > 0 ↔ j ≤ p := fun j => by rw [hp.1 j]; by_cases h : j ≤ p <;> simp [h]
  have hcan : ∀ j, causal j ≠ 0 ↔ j ≤ p := fun j => by rw [hp.1 j]; by_cases h : j ≤ p <;> simp [h]
  have hmc : ∀ c, maybeCausal bidirectional causal = some c → c = causal := by
    intro c hc
    unfold maybeCausal at hc
    split_ifs at hc
    exact (Option.some.inj hc).symm
  refine ⟨fun j => inputs j * causal j, feed (step ex lg net) (prefill ex lg net (some P) p.val net.layers
      (fun j => embed net.table (inputs j * causal j))),
    fun i => toLogits net (net.layers.foldl (layer ex lg net (some M)) (fun i => embed net.table (inputs i)) i), ?_, ?_, ?_, ?_⟩
  · simp only [predict, computeKvCache, hP, hlen]
  · intro j
    beta_reduce
    rw [hp.1 j]
    by_cases h : j ≤ p <;> simp [h]
  · simp only [apply, hM, Option.map_some]
  intro t hpt hpos
  have hPM : ∀ i j, i ≤ p → (P i j > 0 ↔ M i j > 0) := by
    intro i j hi
    rw [hspec, hPspec, hca, hca]
    constructor
    · rintro ⟨h1, h2, h3⟩
      exact ⟨h1, hpos i (le_trans hi hpt), hpos j (le_trans h3 hpt)⟩
    · rintro ⟨h1, h2, h3⟩
      refine ⟨h1, hi, ?_⟩
      rcases h1 with h1 | ⟨c, hc, h4, h5⟩
      · exact le_trans (show j.val ≤ i.val from h1) hi
      · rw [hmc c hc] at h5
        exact (hcan j).1 h5
  have hMp : ∀ i j, i ≤ p → M i j > 0 → j ≤ p := by
    intro i j hi hij
    have := (hPM i j hi).2 hij
    rw [hPspec, hca, hca] at this
    exact this.2.2
  have hPself : ∀ i, i ≤ p → P i i > 0 := fun i hi => by
    rw [hPspec, hca]; exact ⟨Or.inl le_rfl, hi, hi⟩
  have hrow : ∀ i : Fin n, p ≤ i → i ≤ t → ∀ j, M i j > 0 ↔ j.val ≤ i.val := by
    intro i hpi hit j
    rw [hspec]
    constructor
    · rintro ⟨h1 | ⟨c, hc, h4, h5⟩, h2, h3⟩
      · exact h1
      · rw [hmc c hc] at h5
        exact le_trans ((hcan j).1 h5) hpi
    · intro hj
      exact ⟨Or.inl hj, hpos i hit, hpos j (le_trans (show j ≤ i from hj) hit)⟩
  rw [prefill_spec hex hθ ht p P M hPM hMp hPself net.layers (fun _ h => h) (fun j => embed net.table (inputs j * causal j))
    (fun j => embed net.table (inputs j)) (fun i hi => by rw [hp.1 i, if_pos hi, mul_one])]
  refine feed_spec (step ex lg net) (fun i => cachesAt ex lg net M net.layers (fun j => embed net.table (inputs j)) i) inputs
    (fun i => toLogits net (net.layers.foldl (layer ex lg net (some M)) (fun i => embed net.table (inputs i)) i)) p.val t.val t.isLt (fun i hpi hit => ?_) (t.val - p.val) p.val le_rfl (by have : p.val ≤ t.val := hpt; omega)
  have e := stackStep_spec (lg := lg) hex hθ ht M i (hrow i hpi hit) net.layers (fun _ h => h) (fun j => embed net.table (inputs j))
  simp only [step]
  rw [e]

/-- C95, training and prediction: what is predicted after a prompt is what was trained for, also when training packed the example, at positions
a, a+1, …, of a row with other examples. -/
theorem C95_packed_predict (hex : Underflows ex θ) (hθ : 0 < θ) (ht : TameLm net θ B) {n0 n : Nat} (bidirectional : Bool)
    (inputs targets causal : Row n0) (p : Fin n0) (hp : Prompt inputs causal p) (packed : Input n) (ds : Row n) (h4 : packed.seg = some ds)
    (s : Int) (a : Nat) (hds : ∀ j, ds j = s ↔ a ≤ j.val ∧ j.val < a + n0) (hn : a + n0 ≤ n)
    (htok : ∀ (i : Fin n0) (j : Fin n), j.val = a + i.val → packed.targets j = targets i ∧ packed.inputs j = inputs i ∧
      (InPrefix packed.causal j ↔ bidirectional = true ∧ i ≤ p)) :
    ∃ y, apply ex lg net packed = some y ∧ ∀ (i : Fin n0) (j : Fin n), j.val = a + i.val → p ≤ i → (∀ k ≤ i, targets k > 0) →
      ((predict ex lg net bidirectional inputs causal).2.2 ((List.ofFn inputs).drop p.val))[i.val - p.val]? = some (y j) := by
  obtain ⟨toks, logits, out, h1, -, h3, h5⟩ := C95_prefill (lg := lg) hex hθ ht bidirectional inputs targets causal p hp
  have hpre : ∀ i, InPrefix (maybeCausal bidirectional causal) i ↔ bidirectional = true ∧ i ≤ p := by
    intro i
    unfold InPrefix maybeCausal
    cases bidirectional with
    | false => simp
    | true =>
      simp only [if_true, Option.some.injEq, true_and]
      constructor
      · rintro ⟨c, rfl, hc⟩
        by_contra h
        rw [hp.1 i, if_neg h] at hc
        exact hc rfl
      · intro hi
        exact ⟨causal, rfl, by rw [hp.1 i, if_pos hi]; decide⟩
  obtain ⟨y1, y2, g1, g2, g3⟩ := C95_packed (lg := lg) hex hθ ht ⟨inputs, targets, maybeCausal bidirectional causal, none⟩ packed rfl ds h4 s a hds hn
    (fun i j hij => ⟨(htok i j hij).1, (htok i j hij).2.1, by rw [(htok i j hij).2.2]; exact hpre i⟩)
  rw [h3] at g1
  cases g1
  refine ⟨y2, g2, fun i j hij hpi hpos => ?_⟩
  rw [h1, h5 i hpi hpos, g3 i j hij (hpos i le_rfl)]

/-- C95, scores: sampling returns the prompt followed by the sampled tokens, and with each sequence the score it has under the network's logits
for the whole row (cross entropy summed over the non-padding positions after the prompt), unless padding was sampled before the end marker. -/
theorem C95_score (hex : Underflows ex θ) (hθ : 0 < θ) (ht : TameLm net θ B) {n : Nat} (bidirectional : Bool)
    (pick : Nat → Nat → Vec V → Fin V) (eos : Int) (he : eos ≠ 0) (batch : List (Score.LMRow n)) (fuel : Nat) (hf : max 1 n ≤ fuel) (b : Nat)
    (r : Score.LMRow n) (hb : batch[b]? = some r) (p : Fin n) (hp : Prompt r.inputs r.causal p)
    (hpos : ∀ j : Fin n, 1 ≤ j.val → j ≤ p → r.inputs j > 0)
    (hlim : p.val < Sampling.maxDecodeLen ⟨List.ofFn fun j => r.inputs j * r.causal j, some p.val, r.maxSteps⟩) :
    ∃ out lp logits, (predictBatch ex lg net bidirectional pick eos fuel batch)[b]? = some (out, lp) ∧ out.length = n ∧
      (∀ j : Fin n, 1 ≤ j.val → j ≤ p → out.getD (j.val - 1) 0 = r.inputs j) ∧
      apply ex lg net ⟨Score.Spec.shifted n (r.inputs ⟨0, p.pos⟩) out, Score.Spec.asRow n out, maybeCausal bidirectional r.causal, none⟩ = some logits ∧
      (Score.Spec.NoPadding p (Sampling.maxDecodeLen ⟨List.ofFn fun j => r.inputs j * r.causal j, some p.val, r.maxSteps⟩) eos out →
        lp = Score.scoreRow logits (Score.Spec.asRow n out) (Score.Spec.weightsFrom n p out)) := by
  have hpn := p.isLt
  let x : Row n := fun j => r.inputs j * r.causal j
  have hx : ∀ j, x j = if j ≤ p then r.inputs j else 0 := fun j => by simp only [x, hp.1 j]; split_ifs <;> simp
  have hlen : (List.ofFn x).length = n := List.length_ofFn
  let fill : Score.LMRow n → List (EncLayer d h e f × Cache h e n) × Nat := fun r =>
    computeKvCache ex lg net bidirectional (fun j => r.inputs j * r.causal j) r.causal
  have hfill : (fill r).2 = p.val := inputsLength_prompt r.inputs r.causal p hp
  have hrp : Sampling.Spec.RightPadded (List.ofFn x) p.val := by
    refine ⟨by rw [hlen]; exact hpn, fun j h1 h2 => ?_, fun j h1 => ?_⟩
    · rw [Score.getD_ofFn x ⟨j, by omega⟩, hx, if_pos (show (⟨j, by omega⟩ : Fin n) ≤ p from h2)]
      exact (hpos ⟨j, by omega⟩ h1 h2).ne'
    · by_cases hj : j < n
      · rw [Score.getD_ofFn x ⟨j, hj⟩, hx, if_neg (show ¬ (⟨j, hj⟩ : Fin n) ≤ p from Nat.not_le.2 h1)]
      · rw [List.getD_eq_getElem?_getD, List.getElem?_eq_none (by rw [hlen]; omega)]; rfl
  let ref : Row n → Row n → Fin n → Fin V → ℝ := fun inputs targets =>
    (apply ex lg net ⟨inputs, targets, maybeCausal bidirectional r.causal, none⟩).getD fun _ _ => 0
  let caches : Nat → List (EncLayer d h e f × Cache h e n) := fun b => (batch[b]?.map fun r => (fill r).1).getD []
  have hc : caches b = (fill r).1 := by simp only [caches, hb, Option.map_some, Option.getD_some]
  obtain ⟨out, lp, hout, hl, hpr, -, hsc⟩ := Score.score_generic (fun _ => step ex lg net) pick eos he
    (batch.map fun r => ⟨List.ofFn fun j => r.inputs j * r.causal j, some (fill r).2, r.maxSteps⟩) caches n
    (by intro y hy; obtain ⟨z, _, rfl⟩ := List.mem_map.1 hy; simp) fuel hf b ⟨List.ofFn x, some p.val, r.maxSteps⟩
    (by rw [List.getElem?_map, hb, Option.map_some, hfill]) hlen p.val hrp
    (fun j h1 h2 => by
      show (List.ofFn x).getD j 0 > 0
      rw [Score.getD_ofFn x ⟨j, by omega⟩, hx, if_pos (show (⟨j, by omega⟩ : Fin n) ≤ p from h2)]; exact hpos ⟨j, by omega⟩ h1 h2)
    p.val rfl le_rfl hlim (r.inputs ⟨0, p.pos⟩)
    (by
      show (List.ofFn x ++ [0, 0]).getD p.val 0 = _
      have e : (List.ofFn x ++ [0, 0]).getD p.val 0 = r.inputs p := by
        rw [List.getD_eq_getElem?_getD, List.getElem?_append_left (by rw [hlen]; exact hpn), List.getElem?_ofFn, dif_pos hpn]
        simp only [Option.getD_some, Fin.eta]
        rw [hx, if_pos le_rfl]
      rw [e]
      by_cases h0 : p.val = 0
      · rw [if_pos h0]; congr 1; exact Fin.ext h0
      · rw [if_neg h0]
        show _ = (List.ofFn x).getD p.val 0
        rw [Score.getD_ofFn x p, hx, if_pos le_rfl]) ref
    (by
      intro inputs targets t h1 h2 h3 h4 ht'
      have hin : ∀ j : Fin n, j ≤ p → inputs j = r.inputs j := by
        intro j hj
        by_cases h0 : j.val = 0
        · rw [h2 j h0]; congr 1; exact Fin.ext h0.symm
        · rw [h3 j (by omega) hj]
          show (List.ofFn x).getD j.val 0 = _
          rw [Score.getD_ofFn, hx, if_pos hj]
      have hp' : Prompt inputs r.causal p := ⟨hp.1, fun j hj0 hj => by rw [hin j hj]; exact hp.2 j hj0 hj⟩
      obtain ⟨toks, lgs, o, g1, g2, g3, g4⟩ := C95_prefill (lg := lg) hex hθ ht bidirectional inputs targets r.causal p hp'
      have hx' : (fun j => inputs j * r.causal j) = x := by
        funext j
        rw [hx]
        rw [hp.1 j]
        by_cases hj : j ≤ p
        · simp [hj, hin j hj]
        · simp [hj]
      simp only [predict, hx', Prod.mk.injEq] at g1
      simp only [ref, g3, Option.getD_some, hc]
      have e2 : (fill r).1 = (computeKvCache ex lg net bidirectional x r.causal).1 := rfl
      rw [e2, g1.2.2]
      exact g4 t h4 ht')
  obtain ⟨logits, hlg⟩ := apply_some (ex := ex) (lg := lg) (net := net)
    (⟨Score.Spec.shifted n (r.inputs ⟨0, p.pos⟩) out, Score.Spec.asRow n out, maybeCausal bidirectional r.causal, none⟩ : Input n)
  refine ⟨out, lp, logits, hout, hl, fun j h1 h2 => ?_, hlg, fun hnp => ?_⟩
  · have h2' : j.val ≤ p.val := h2
    rw [hpr (j.val - 1) (by omega)]
    have e : j.val - 1 + 1 = j.val := by omega
    rw [e]
    show (List.ofFn x).getD j.val 0 = _
    rw [Score.getD_ofFn, hx, if_pos h2]
  · rw [hsc hnp]
    simp only [ref, hlg, Option.getD_some]

/-! ### Examples -/

noncomputable def demoLm : LmNet 1 1 1 1 2 where
  eps := 1e-6
  table := fun _ _ => 1
  rel := fun _ b => if b = 0 then 1 else 0
  layers := [⟨fun _ => 1, ⟨fun _ _ => 2, fun _ _ => 3, fun _ _ => 1, fun _ _ => 1⟩, fun _ => 1, ⟨(fun x => max x 0, fun _ _ => 1), [(id, fun _ _ => 1)], fun _ _ => 1⟩⟩]
  norm := fun _ => 1
  head := .viaEmbedding

theorem demoLm_tame : TameLm demoLm 104 7 := by
  refine ⟨by norm_num [demoLm], by norm_num, ⟨1, fun hd b => ?_, ?_⟩⟩
  · simp only [demoLm]; split_ifs <;> simp
  · intro l hl hd
    simp only [demoLm, List.mem_singleton] at hl
    subst hl
    norm_num [logitBound, reach]

theorem flushed_underflows : Underflows flushed 104 := fun _ hx => if_pos hx

/-- A prompt of two tokens with bidirectional attention; the row in training also holds another example. -/
example : ∃ y, apply flushed lg demoLm (⟨![0, 0, 7, 3, 5, 1], ![4, 7, 3, 5, 1, 9], some ![1, 1, 1, 1, 0, 0], some ![1, 2, 2, 2, 2, 2]⟩ : Input 6) = some y ∧
    ((predict flushed lg demoLm true ![0, 7, 3, 5, 1] ![1, 1, 1, 0, 0]).2.2 [3, 5, 1])[2]? = some (y 5) := by
  obtain ⟨y, h1, h2⟩ := C95_packed_predict (lg := lg) flushed_underflows (by norm_num) demoLm_tame true (![0, 7, 3, 5, 1] : Row 5) ![7, 3, 5, 1, 9]
    ![1, 1, 1, 0, 0] 2 ⟨by decide, by decide⟩ ⟨![0, 0, 7, 3, 5, 1], ![4, 7, 3, 5, 1, 9], some ![1, 1, 1, 1, 0, 0], some ![1, 2, 2, 2, 2, 2]⟩
    ![1, 2, 2, 2, 2, 2] rfl 2 1 (by decide) (by decide) (by
      intro i j hij
      have : j = i.succ := by ext; rw [hij]; simp; omega
      subst this
      refine ⟨by revert i; decide, by revert i; decide, ?_⟩
      simp only [InPrefix, Option.some.injEq, exists_eq_left', true_and]
      revert i; decide)
  exact ⟨y, h1, h2 4 5 rfl (by decide) (by decide)⟩

/-- Position 3, after the prompt of `C95_causal`'s row, does not depend on the last token. -/
example : ∃ y1 y2, apply flushed lg demoLm (⟨![0, 7, 3, 5, 1], ![7, 3, 5, 1, 9], some ![1, 1, 1, 0, 0], none⟩ : Input 5) = some y1 ∧
    apply flushed lg demoLm (⟨![0, 7, 3, 5, 8], ![7, 3, 5, 2, 0], some ![1, 1, 1, 0, 0], none⟩ : Input 5) = some y2 ∧ y1 3 = y2 3 :=
  C95_causal flushed_underflows (by norm_num) demoLm_tame ⟨![0, 7, 3, 5, 1], ![7, 3, 5, 1, 9], some ![1, 1, 1, 0, 0], none⟩
    ![0, 7, 3, 5, 8] ![7, 3, 5, 2, 0] 3 3 le_rfl (by decide)
    (by
      intro q _
      simp only [InPrefix, Option.some.injEq, exists_eq_left']
      revert q; decide) (by decide)

/-- `C95_score` applies to a batch of one row with a prompt of two tokens. -/
example : ∃ out lp logits, (predictBatch flushed lg demoLm true (fun _ _ _ => 1) 1 5 [⟨(![0, 4, 5, 2, 2] : Row 5), ![1, 1, 1, 0, 0], none⟩])[0]? =
      some (out, lp) ∧ out.length = 5 ∧
    apply flushed lg demoLm ⟨Score.Spec.shifted 5 0 out, Score.Spec.asRow 5 out, some ![1, 1, 1, 0, 0], none⟩ = some logits := by
  obtain ⟨out, lp, logits, h1, h2, _, h4, _⟩ := C95_score (lg := lg) flushed_underflows (by norm_num) demoLm_tame true (fun _ _ _ => (1 : Fin 2)) 1 (by decide)
    [⟨(![0, 4, 5, 2, 2] : Row 5), ![1, 1, 1, 0, 0], none⟩] 5 (by decide) 0 ⟨![0, 4, 5, 2, 2], ![1, 1, 1, 0, 0], none⟩ rfl 2
    ⟨by decide, by decide⟩ (by decide) (by decide)
  exact ⟨out, lp, logits, h1, h2, h4⟩

end Verif.DecoderOnly
