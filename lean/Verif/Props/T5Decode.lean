import Verif.Model.T5Decode
import Verif.Props.Transformer
import Verif.Lemmas.KVCache
import Verif.Props.Score
/-
Property C94: with the whole T5 network, decoding token by token gives exactly the logits that training and scoring compute.
-/
namespace Verif.T5Decode
open Verif.Masks Verif.Transformer Verif.KVCache Verif.Transformer.Spec

variable {d h e f V : Nat} {ex : ℝ → ℝ} {lg : ℕ → ℝ} {net : Transformer.Net d h e f V} {θ B : ℝ}

/-! ### One layer -/

/-- What the cache of a layer contains after `i` tokens with the hidden states `x`. -/
noncomputable def cacheOf {n : Nat} (L : Nat) (eps : ℝ) (p : Attn d h e) (scale : Vec d) (x : Fin n → Vec d) (i : Nat) : Cache h e L :=
  ⟨fun hd a j => if hj : j.val < i ∧ j.val < n then project p.key (layerNorm eps scale (x ⟨j.val, hj.2⟩)) hd a else 0,
   fun hd a j => if hj : j.val < i ∧ j.val < n then project p.value (layerNorm eps scale (x ⟨j.val, hj.2⟩)) hd a else 0, i⟩

theorem selfStep_spec (hex : Underflows ex θ) (hgap : 2 * B + θ ≤ 1e10) (hB : 2 * B < 1e10) {eps : ℝ} (heps : 0 ≤ eps) {n L : Nat}
    (hnL : n ≤ L) (p : Attn d h e) (scale : Vec d) (rel : Fin h → ℤ → ℝ) (r : ℝ) (hr : ∀ hd b, |rel hd b| ≤ r)
    (hrB : ∀ hd, logitBound p scale scale r hd ≤ B) (row : Nat → Fin h → Fin L → ℝ) (mask : Mask n n) (x : Fin n → Vec d) (i : Fin n)
    (hmask : ∀ j, mask i j > 0 ↔ j.val ≤ i.val) (hrow : ∀ hd j, row i.val hd j = RelPos.bias lg (rel hd) false 32 i.val j.val) :
    selfStep ex p row (cacheOf L eps p scale x i.val) (layerNorm eps scale (x i)) =
      (Transformer.attention ex p (layerNorm eps scale (x i)) (fun j => layerNorm eps scale (x j)) (some (mask i))
        (some (relBias lg rel false n i)), cacheOf L eps p scale x (i.val + 1)) := by
  have hi := i.2
  have e1 := fun hd a j => scatter (L := L) (fun z => project p.key (layerNorm eps scale z)) x i hd a j
  have e2 := fun hd a j => scatter (L := L) (fun z => project p.value (layerNorm eps scale z)) x i hd a j
  have hrow' : ∀ hd (j : Fin L), |row i.val hd j| ≤ r := by
    intro hd j
    rw [hrow]
    exact relBias_le lg rel r hr false L ⟨i.val, by omega⟩ hd j
  simp only [selfStep, cacheOf, e1, e2, Transformer.attention]
  congr 2
  funext hd a
  have f1 : ∀ {N : Nat} (K : Fin N → Fin h → Fin e → ℝ) (M : Fin N → Int) (b : Fin h → Fin N → ℝ) (q : Fin h → Fin e → ℝ),
      logitsOf q K (some M) (some b) hd = fun k => raw q K (some b) hd k + maskBias (M k) := by
    intro N K M b q; funext k; rw [logitsOf_some]
  rw [f1, f1]
  have hpos : ∀ c, 0 ≤ reach scale p.query hd c * reach scale p.key hd c := fun c =>
    mul_nonneg ((abs_nonneg _).trans (project_le eps heps scale (x i) _ hd c))
      ((abs_nonneg _).trans (project_le eps heps scale (x i) _ hd c))
  symm
  refine average_sim ex θ B hex hgap hB (fun (k : Fin n) (j : Fin L) => k.val = j.val)
    (fun k k' l h1 h2 => Fin.ext (by omega)) (fun k l l' h1 h2 => Fin.ext (by omega)) _ _ _ _ (mask i) _ ?_ ?_ ?_ ?_ ?_ ?_ ?_
  · intro k
    exact (raw_le eps heps _ _ _ _ _ (some (relBias lg rel false n i)) r
        (fun hd k => relBias_le lg _ r hr _ _ _ _ _) hd k).trans (hrB hd)
  · intro j
    refine le_trans ?_ (hrB hd)
    unfold raw logitBound
    refine (abs_add_le _ _).trans (add_le_add ?_ (hrow' hd j))
    refine (Finset.abs_sum_le_sum_abs _ _).trans (Finset.sum_le_sum fun c _ => ?_)
    beta_reduce
    by_cases hj : j.val < i.val + 1 ∧ j.val < n
    · rw [dif_pos hj, abs_mul]
      exact mul_le_mul (project_le eps heps _ _ _ hd c) (project_le eps heps _ _ _ hd c) (abs_nonneg _)
        ((abs_nonneg _).trans (project_le eps heps scale (x i) _ hd c))
    · rw [dif_neg hj, mul_zero, abs_zero]; exact hpos c
  · exact ⟨i, (hmask i).2 le_rfl⟩
  · intro k hk
    have := (hmask k).1 hk
    exact ⟨⟨k.val, by omega⟩, rfl, by simp [ofBool, this]⟩
  · intro j hj
    have hj' : j.val ≤ i.val := by
      by_contra hc
      simp [ofBool, hc] at hj
    exact ⟨⟨j.val, by omega⟩, rfl, (hmask _).2 hj'⟩
  · intro k j hkj hk
    have hk' := (hmask k).1 hk
    simp only [raw, Option.elim]
    congr 1
    · refine Finset.sum_congr rfl fun c _ => ?_
      rw [dif_pos ⟨by omega, by omega⟩]
      have : (⟨j.val, by omega⟩ : Fin n) = k := Fin.ext hkj.symm
      rw [this]
    · simp only [hrow, relBias, hkj]
  · intro k j hkj hk
    have hk' := (hmask k).1 hk
    rw [dif_pos ⟨by omega, by omega⟩]
    have : (⟨j.val, by omega⟩ : Fin n) = k := Fin.ext hkj.symm
    rw [this]

theorem layerStep_spec (hex : Underflows ex θ) (hθ : 0 < θ) (ht : Tame net θ B) {n L m : Nat} (hnL : n ≤ L) (l : DecLayer d h e f)
    (hl : l ∈ net.dec) (mask : Mask n n) (cross : Mask n m) (row : Fin m → Int) (encoded : Fin m → Vec d) (x : Fin n → Vec d) (i : Fin n)
    (hmask : ∀ j, mask i j > 0 ↔ j.val ≤ i.val) (hcross : cross i = row) :
    layerStep ex lg net row encoded l (cacheOf L net.eps l.self l.preSelf x i.val) (x i) =
      (decLayer ex lg net (some mask) (some cross) encoded x l i, cacheOf L net.eps l.self l.preSelf x (i.val + 1)) := by
  have hi := i.2
  obtain ⟨r, hr, hrB⟩ := ht.dec
  have hgap := ht.gap
  have hclamp : clampIndex i.val L = i.val := by unfold clampIndex; omega
  have hself := selfStep_spec (lg := lg) hex hgap (by linarith) ht.eps hnL l.self l.preSelf net.decRel r hr (hrB l hl)
    (biasRow lg net.decRel L) mask x i hmask (fun hd j => by unfold biasRow; rw [hclamp])
  simp only [layerStep, hself, decLayer, Option.map_some, hcross]

/-! ### The stack -/

noncomputable def cachesAt (ex : ℝ → ℝ) (lg : ℕ → ℝ) (net : Transformer.Net d h e f V) {n m : Nat} (L : Nat) (mask : Mask n n)
    (cross : Mask n m) (encoded : Fin m → Vec d) : List (DecLayer d h e f) → (Fin n → Vec d) → Nat → List (DecLayer d h e f × Cache h e L)
  | [], _, _ => []
  | l :: ls, x, i => (l, cacheOf L net.eps l.self l.preSelf x i) ::
      cachesAt ex lg net L mask cross encoded ls (decLayer ex lg net (some mask) (some cross) encoded x l) i

theorem cachesAt_zero {n m : Nat} (L : Nat) (mask : Mask n n) (cross : Mask n m) (encoded : Fin m → Vec d) (ls : List (DecLayer d h e f)) :
    ∀ x : Fin n → Vec d, cachesAt ex lg net L mask cross encoded ls x 0 = ls.map fun l => (l, Cache.init h e L) := by
  induction ls with
  | nil => intro x; rfl
  | cons l ls ih =>
    intro x
    simp only [cachesAt, List.map_cons, ih]
    simp [cacheOf, Cache.init]

theorem stackStep_spec (hex : Underflows ex θ) (hθ : 0 < θ) (ht : Tame net θ B) {n L m : Nat} (hnL : n ≤ L) (mask : Mask n n)
    (cross : Mask n m) (row : Fin m → Int) (encoded : Fin m → Vec d) (i : Fin n) (hmask : ∀ j, mask i j > 0 ↔ j.val ≤ i.val)
    (hcross : cross i = row) (ls : List (DecLayer d h e f)) : (∀ l ∈ ls, l ∈ net.dec) → ∀ x : Fin n → Vec d,
    stackStep ex lg net row encoded (cachesAt ex lg net L mask cross encoded ls x i.val) (x i) =
      (ls.foldl (decLayer ex lg net (some mask) (some cross) encoded) x i, cachesAt ex lg net L mask cross encoded ls x (i.val + 1)) := by
  induction ls with
  | nil => intro _ x; rfl
  | cons l ls ih =>
    intro hl x
    simp only [cachesAt, stackStep, layerStep_spec hex hθ ht hnL l (hl l (List.mem_cons_self ..)) mask cross row encoded x i hmask hcross]
    rw [ih fun l' h' => hl l' (List.mem_cons_of_mem _ h')]
    rfl

/-! ### The property -/

/-- C94: with caches of at least the row's length, the logits after feeding the decoder inputs one by one are those that the model computes
for the whole row, up to the first padding target. -/
theorem C94_decode (hex : Underflows ex θ) (hθ : 0 < θ) (ht : Tame net θ B) {n m : Nat} (b : Input n m) (h1 : b.encSeg = none)
    (h2 : b.decSeg = none) (L : Nat) (hL : n ≤ L) :
    ∃ y outs, apply ex lg net b = some y ∧ predict ex lg net L b.encTokens (List.ofFn b.decInputs) = some outs ∧
      ∀ t : Fin n, (∀ j ≤ t, b.decTargets j > 0) → outs[t.val]? = some (y t) := by
  obtain ⟨A, hA, -⟩ := encMask b.encTokens b.encSeg
  obtain ⟨M, hM, hspec⟩ := mask_spec b.decTargets none
  let cross : Mask n m := makeAttentionMask (fun i => ofBool (b.decTargets i > 0)) (fun i => ofBool (b.encTokens i > 0)) multiply
  have hX : makeEncoderDecoderMask b.decTargets b.encTokens none none = some cross := rfl
  refine ⟨decoder ex lg net (encoder ex lg net b.encTokens (some A)) b.decInputs (some M) (some cross),
    feed (step ex lg net b.encTokens (encoder ex lg net b.encTokens (some A))) (emptyCaches net L) (List.ofFn b.decInputs), ?_, ?_, ?_⟩
  · rw [h1] at hA
    simp only [apply, Transformer.encode, hA, h1, h2, hM, hX, Option.map_some, Option.bind_some]
  · rw [h1] at hA
    simp only [predict, hA, Option.map_some]
  intro t hpos
  generalize encoder ex lg net b.encTokens (some A) = encoded
  have hrow : ∀ i : Fin n, i ≤ t → ∀ j, M i j > 0 ↔ j.val ≤ i.val := by
    intro i hi j
    rw [hspec]
    constructor
    · rintro ⟨h | ⟨c, hc, _⟩, _⟩
      · exact h
      · cases hc
    · exact fun h => ⟨Or.inl h, hpos i hi, hpos j (show j.val ≤ t.val from le_trans h hi)⟩
  have hc : ∀ i : Fin n, i ≤ t → cross i = makeAttentionMask (fun _ => 1 : Row 1) (fun i => ofBool (b.encTokens i > 0)) multiply 0 := by
    intro i hi
    funext j
    have := hpos i hi
    simp [cross, makeAttentionMask, multiply, ofBool, this]
  have e := feed_spec (step ex lg net (L := L) b.encTokens encoded)
    (fun i => cachesAt ex lg net L M cross encoded net.dec (fun j => embed net.table (b.decInputs j)) i) b.decInputs
    (decoder ex lg net encoded b.decInputs (some M) (some cross)) 0 t.val t.isLt (fun i _ hi => ?_) t.val 0 (by omega) (by omega)
  · rw [cachesAt_zero] at e
    exact e
  · have e := stackStep_spec (lg := lg) hex hθ ht hL M cross _ encoded i (hrow i hi) (hc i hi) net.dec (fun _ h => h)
      (fun j => embed net.table (b.decInputs j))
    simp only [step]
    rw [e]
    rfl

/-- C94 with packing: the logits with which an example's tokens are generated are those with which the model was trained on the example,
wherever it was packed. -/
theorem C94_packed (hex : Underflows ex θ) (hθ : 0 < θ) (ht : Tame net θ B) {n0 m0 n m : Nat} (packed : Input n m)
    (es : Row m) (ds : Row n) (h3 : packed.encSeg = some es) (h4 : packed.decSeg = some ds) (s : Int) (a c : Nat)
    (hds : ∀ j, ds j = s ↔ a ≤ j.val ∧ j.val < a + n0) (hes : ∀ j, es j = s ↔ c ≤ j.val ∧ j.val < c + m0)
    (hn : a + n0 ≤ n) (hm : c + m0 ≤ m) (encTokens : Row m0) (decInputs : Row n0)
    (hin : ∀ (i : Fin n0) (j : Fin n), j.val = a + i.val → packed.decTargets j > 0 ∧ packed.decInputs j = decInputs i)
    (henc : ∀ (i : Fin m0) (j : Fin m), j.val = c + i.val → packed.encTokens j = encTokens i)
    (hne : ∃ k, encTokens k > 0) (L : Nat) (hL : n0 ≤ L) :
    ∃ y outs, apply ex lg net packed = some y ∧ predict ex lg net L encTokens (List.ofFn decInputs) = some outs ∧
      ∀ (i : Fin n0) (j : Fin n), j.val = a + i.val → outs[i.val]? = some (y j) := by
  let alone : Input n0 m0 := ⟨encTokens, decInputs, fun i => packed.decTargets ⟨a + i.val, by have := i.isLt; omega⟩, none, none⟩
  have htok : ∀ (i : Fin n0) (j : Fin n), j.val = a + i.val →
      packed.decTargets j = alone.decTargets i ∧ packed.decInputs j = alone.decInputs i := fun i j hij =>
    ⟨congrArg packed.decTargets (Fin.ext hij), (hin i j hij).2⟩
  have hpos : ∀ i, alone.decTargets i > 0 := fun i => (hin i ⟨a + i.val, by have := i.isLt; omega⟩ rfl).1
  obtain ⟨y1, y2, e1, e2, hy⟩ := C93_packed (lg := lg) hex hθ ht alone packed rfl rfl es ds h3 h4 s a c hds hes hn hm htok henc hne
  obtain ⟨y, outs, e3, e4, ho⟩ := C94_decode (lg := lg) hex hθ ht alone rfl rfl L hL
  rw [e1] at e3; cases e3
  exact ⟨y2, outs, e2, e4, fun i j hij => by rw [ho i fun j _ => hpos j, hy i j hij (hpos i)]⟩

/-- C94 for whole predictions: whatever the prompts and the way tokens are chosen, the log-probability returned with a sequence is its score
under the network's logits for the whole row (cross entropy summed over the non-padding positions after the prompt), unless padding was
sampled before the end marker. -/
theorem C94_score (hex : Underflows ex θ) (hθ : 0 < θ) (ht : Tame net θ B) {m n : Nat} (enc : Nat → Row m)
    (pick : Nat → Nat → Vec V → Fin V) (eos : Int) (he : eos ≠ 0) (prompts : List (Row n × Option Nat)) (fuel : Nat) (hf : max 1 n ≤ fuel)
    (b : Nat) (r : Row n × Option Nat) (hb : prompts[b]? = some r) (p : Nat) (hp : Sampling.Spec.RightPadded (List.ofFn r.1) p)
    (hpos : ∀ j : Fin n, 1 ≤ j.val → j.val ≤ p → r.1 j > 0) (hlim : r.2 ≠ some 0 ∨ 1 ≤ p) :
    ∃ out lp logits, (predictBatch ex lg net enc pick eos fuel prompts)[b]? = some (out, lp) ∧ out.length = n ∧
      (∀ j : Fin n, 1 ≤ j.val → j.val ≤ p → out.getD (j.val - 1) 0 = r.1 j) ∧
      apply ex lg net ⟨enc b, Score.Spec.shifted n 0 out, Score.Spec.asRow n out, none, none⟩ = some logits ∧
      (Score.Spec.NoPadding p (Sampling.maxDecodeLen ⟨List.ofFn r.1, none, r.2⟩) eos out →
        lp = Score.scoreRow logits (Score.Spec.asRow n out) (Score.Spec.weightsFrom n p out)) := by
  have hlen : (List.ofFn r.1).length = n := List.length_ofFn
  have hpn : p < n := hlen ▸ hp.lt
  have him : 0 < Sampling.maxDecodeLen ⟨List.ofFn r.1, none, r.2⟩ := by
    have hle := Sampling.le_maxLen ⟨List.ofFn r.1, none, r.2⟩ hp
    by_cases h1 : 1 ≤ p
    · omega
    · have h2 := hlim.resolve_right h1
      unfold Sampling.maxDecodeLen
      cases h3 : r.2 with
      | none => simp only [hlen]; omega
      | some k =>
        have : k ≠ 0 := fun e => h2 (by rw [h3, e])
        simp only [hlen]
        omega
  let ref : Row n → Row n → Fin n → Fin V → ℝ := fun inputs targets => (apply ex lg net ⟨enc b, inputs, targets, none, none⟩).getD fun _ _ => 0
  obtain ⟨A, hA, -⟩ := encMask (enc b) none
  obtain ⟨out, lp, hout, hl, hpr, -, hsc⟩ := Score.score_generic
    (fun b => step ex lg net (enc b) (encoder ex lg net (enc b) (makeEncoderMask (enc b) none))) pick eos he
    (prompts.map fun r => ⟨List.ofFn r.1, none, r.2⟩) (fun _ => emptyCaches net n) n
    (by intro x hx; obtain ⟨y, _, rfl⟩ := List.mem_map.1 hx; simp) fuel hf b ⟨List.ofFn r.1, none, r.2⟩
    (by rw [List.getElem?_map, hb]; rfl) hlen p hp
    (fun j h1 h2 => by rw [Score.getD_ofFn r.1 ⟨j, by omega⟩]; exact hpos _ h1 h2) 0 rfl (Nat.zero_le _) him 0 rfl ref
    (by
      intro inputs targets t _ _ _ _ ht'
      obtain ⟨y, outs, h1, h2, h3⟩ := C94_decode (lg := lg) hex hθ ht ⟨enc b, inputs, targets, none, none⟩ rfl rfl n le_rfl
      simp only [predict, hA, Option.map_some, Option.some.injEq] at h2
      simp only [ref, h1, Option.getD_some, List.drop_zero, Nat.sub_zero, hA]
      rw [h2]
      exact h3 t ht')
  obtain ⟨logits, hlg⟩ := apply_some (ex := ex) (lg := lg) (net := net)
    (⟨enc b, Score.Spec.shifted n 0 out, Score.Spec.asRow n out, none, none⟩ : Input n m) (by simp [SegsOk])
  refine ⟨out, lp, logits, hout, hl, fun j h1 h2 => ?_, hlg, fun hnp => ?_⟩
  · rw [hpr (j.val - 1) (by omega)]
    have : j.val - 1 + 1 = j.val := by omega
    rw [this, Score.getD_ofFn]
  · rw [hsc hnp]
    simp only [ref, hlg, Option.getD_some]

/-- A limit: what is fed when the cache is full is not stored. -/
theorem C94_full_cache {L : Nat} (p : Attn d h e) (row : Nat → Fin h → Fin L → ℝ) (c : Cache h e L) (hc : L ≤ c.index) (x : Vec d) :
    (selfStep ex p row c x).2 = { c with index := c.index + 1 } := by
  have h0 : ∀ j : Fin L, oneHot c.index L j = 0 := fun j => by
    unfold oneHot; rw [if_neg (by have := j.isLt; omega)]
  simp only [selfStep, h0, mul_zero, add_zero]

/-- The hypotheses are met by the small model. -/
example : ∃ y outs, apply flushed lg demoNet (⟨![1], ![0, 1], ![1, 1], none, none⟩ : Input 2 1) = some y ∧
    predict flushed lg demoNet 3 ![1] [0, 1] = some outs ∧ outs[1]? = some (y 1) := by
  obtain ⟨y, outs, a, b, c⟩ := C94_decode (lg := lg) (ex := flushed) (θ := 104) (B := 7) (net := demoNet) (fun x hx => if_pos hx) (by norm_num) demoNet_tame
    (⟨![1], ![0, 1], ![1, 1], none, none⟩ : Input 2 1) rfl rfl 3 (by decide)
  exact ⟨y, outs, a, b, c 1 (by decide)⟩

end Verif.T5Decode
