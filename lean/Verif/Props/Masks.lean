import Verif.Model.Masks
import Mathlib.Data.Fin.VecNotation
/-
Property C11: who may attend to whom, and what this means for a whole stack of layers.
Property C54: packed examples do not influence each other.
-/
namespace Verif.Masks

namespace Spec
/-- The claim about the decoder mask. -/
def mayAttend {n : Nat} (tokens : Row n) (prefixVec seg : Option (Row n)) (i j : Fin n) : Prop :=
  tokens i > 0 ∧ tokens j > 0 ∧ (j ≤ i ∨ ∃ c, prefixVec = some c ∧ c i ≠ 0 ∧ c j ≠ 0) ∧
    ∀ s, seg = some s → s i = s j

/-- A layer in which position i sees itself and the positions its mask row allows.  A row that allows
nothing is unconstrained: adding the same large negative bias to every logit leaves softmax free. -/
def Local {n : Nat} {H : Type} (layer : Mask n n → (Fin n → H) → Fin n → H) : Prop :=
  ∀ M M' x x' i, (∃ j, M i j ≠ 0) → (∀ j, M i j = M' i j) → x i = x' i →
    (∀ j, M i j ≠ 0 → x j = x' j) → layer M x i = layer M' x' i

/-- The same for a decoder layer with cross attention. -/
def Local2 {n m : Nat} {H E : Type}
    (layer : Mask n n → Mask n m → (Fin m → E) → (Fin n → H) → Fin n → H) : Prop :=
  ∀ M M' C C' e e' x x' i, (∃ j, M i j ≠ 0) → (∃ j, C i j ≠ 0) → (∀ j, M i j = M' i j) →
    (∀ j, C i j = C' i j) → x i = x' i → (∀ j, M i j ≠ 0 → x j = x' j) →
    (∀ j, C i j ≠ 0 → e j = e' j) → layer M C e x i = layer M' C' e' x' i
end Spec
open Spec

@[simp] theorem ofBool_ne (b : Bool) : ofBool b ≠ 0 ↔ b = true := by cases b <;> simp [ofBool]
@[simp] theorem ofBool_eq_one (b : Bool) : ofBool b = 1 ↔ b = true := by cases b <;> simp [ofBool]
@[simp] theorem ofBool_eq_zero (b : Bool) : ofBool b = 0 ↔ b = false := by cases b <;> simp [ofBool]

theorem mul_ofBool (a b : Bool) : ofBool a * ofBool b = ofBool (a && b) := by
  cases a <;> cases b <;> simp [ofBool]

theorem ofBool_01 (b : Bool) : ofBool b = 0 ∨ ofBool b = 1 := by cases b <;> simp [ofBool]

/-- C11: the decoder mask is always produced, its entries are 0 or 1, and entry (i, j) is 1 exactly when
both tokens are real, j is not later than i or both are in the bidirectional prefix, and both belong to
the same packed segment. -/
theorem C11_decoder_mask {n : Nat} (tokens : Row n) (prefixVec seg : Option (Row n)) :
    ∃ M, makeDecoderMask tokens prefixVec seg = some M ∧
      ∀ i j, (M i j = 0 ∨ M i j = 1) ∧ (M i j = 1 ↔ mayAttend tokens prefixVec seg i j) := by
  unfold makeDecoderMask combineMasks
  cases prefixVec <;> cases seg <;>
  · refine ⟨_, rfl, fun i j => ⟨ofBool_01 _, ?_⟩⟩
    simp [List.foldl, mayAttend, logicalAnd, logicalOr, makeCausalMask, makeAttentionMask, greaterEqual,
      multiply, equal]
    try tauto

example : ∃ M, makeDecoderMask (n := 7) ![6, 7, 8, 3, 4, 5, 0] (some ![1, 1, 0, 1, 1, 0, 0])
    (some ![1, 1, 1, 2, 2, 2, 0]) = some M ∧ M 0 1 = 1 ∧ M 0 2 = 0 ∧ M 3 1 = 0 ∧ M 5 3 = 1 ∧ M 6 6 = 0 :=
  ⟨_, rfl, by decide⟩

/-- C11: with no prefix vector, what a stack of layers computes at a real position i depends only on
positions up to i, however many layers there are: later tokens may be changed at will. -/
theorem C11_causal_stack {n : Nat} {H : Type} (layers : List (Mask n n → (Fin n → H) → Fin n → H))
    (hl : ∀ l ∈ layers, Local l) (tokens tokens' : Row n) (x x' : Fin n → H) (i : Fin n)
    (hi : tokens i > 0) (ht : ∀ j ≤ i, tokens j = tokens' j) (hx : ∀ j ≤ i, x j = x' j)
    (M M' : Mask n n) (hM : makeDecoderMask tokens none none = some M)
    (hM' : makeDecoderMask tokens' none none = some M') :
    encode layers M x i = encode layers M' x' i := by
  obtain ⟨N, h1, h2⟩ := C11_decoder_mask tokens none none
  obtain ⟨N', h1', h2'⟩ := C11_decoder_mask tokens' none none
  rw [hM] at h1; rw [hM'] at h1'
  cases h1; cases h1'
  have key : ∀ j ≤ i, tokens j > 0 → x j = x' j := fun j hj _ => hx j hj
  clear hx
  unfold encode
  have gen : ∀ j ≤ i, tokens j > 0 → layers.foldl (fun h layer => layer M h) x j =
      layers.foldl (fun h layer => layer M' h) x' j := by
    induction layers generalizing x x' with
    | nil => exact key
    | cons l ls ih =>
      apply ih (fun l hl' => hl l (List.mem_cons_of_mem _ hl'))
      intro j hj htj
      apply hl l (List.mem_cons_self ..)
      · refine ⟨j, ?_⟩
        have := ((h2 j j).2).2 ⟨htj, htj, Or.inl le_rfl, by simp⟩
        omega
      · intro k
        have e : mayAttend tokens none none j k ↔ mayAttend tokens' none none j k := by
          unfold mayAttend
          constructor
          · rintro ⟨a, b, c | ⟨_, c, _⟩, d⟩
            · exact ⟨by rw [← ht j hj]; exact a, by rw [← ht k (c.trans hj)]; exact b, Or.inl c, d⟩
            · cases c
          · rintro ⟨a, b, c | ⟨_, c, _⟩, d⟩
            · exact ⟨by rw [ht j hj]; exact a, by rw [ht k (c.trans hj)]; exact b, Or.inl c, d⟩
            · cases c
        have := h2 j k; have := h2' j k
        rcases (h2 j k).1 with h | h <;> rcases (h2' j k).1 with h' | h'
        · rw [h, h']
        · exact absurd ((h2 j k).2.2 (e.2 ((h2' j k).2.1 h'))) (by omega)
        · exact absurd ((h2' j k).2.2 (e.1 ((h2 j k).2.1 h))) (by omega)
        · rw [h, h']
      · exact key j hj htj
      · intro k hk
        have hk1 : M j k = 1 := (h2 j k).1.resolve_left hk
        obtain ⟨a, b, c | ⟨_, c, _⟩, d⟩ := (h2 j k).2.1 hk1
        · exact key k (c.trans hj) b
        · cases c
  exact gen i le_rfl hi

/-- A local layer: each position adds up the states it may attend to. -/
def sumLayer (n : Nat) : Mask n n → (Fin n → Int) → Fin n → Int :=
  fun M x i => x i + ((List.finRange n).map (fun j => if M i j ≠ 0 then x j else 0)).sum

theorem sumLayer_local (n : Nat) : Local (sumLayer n) := by
  intro M M' x x' i _ hM hx h
  unfold sumLayer
  rw [hx]
  congr 2
  apply List.map_congr_left
  intro j _
  rw [← hM j]
  split_ifs with hj
  · exact h j hj
  · rfl

example : ∃ l : Mask 3 3 → (Fin 3 → Int) → Fin 3 → Int, Local l ∧ (![5, 6, 0] : Row 3) 1 > 0 ∧
    ∀ j ≤ (1 : Fin 3), (![5, 6, 0] : Row 3) j = (![5, 6, 9] : Row 3) j :=
  ⟨sumLayer 3, sumLayer_local 3, by decide, by decide⟩

/-- Encoder mask semantics. -/
theorem encoder_mask {n : Nat} (tokens : Row n) (s : Row n) :
    ∃ M, makeEncoderMask tokens (some s) = some M ∧
      ∀ i j, (M i j = 0 ∨ M i j = 1) ∧ (M i j = 1 ↔ tokens i > 0 ∧ tokens j > 0 ∧ s i = s j) := by
  unfold makeEncoderMask combineMasks
  refine ⟨_, rfl, fun i j => ⟨ofBool_01 _, ?_⟩⟩
  simp [List.foldl, logicalAnd, makeAttentionMask, multiply, equal]
  tauto

theorem cross_mask {n m : Nat} (dt : Row n) (et : Row m) (ds : Row n) (es : Row m) :
    ∃ M, makeEncoderDecoderMask dt et (some ds) (some es) = some M ∧
      ∀ i j, (M i j = 0 ∨ M i j = 1) ∧ (M i j = 1 ↔ dt i > 0 ∧ et j > 0 ∧ ds i = es j) := by
  unfold makeEncoderDecoderMask combineMasks
  refine ⟨_, rfl, fun i j => ⟨ofBool_01 _, ?_⟩⟩
  simp [List.foldl, logicalAnd, makeAttentionMask, multiply, equal]
  tauto

theorem eq_of_01 {a b : Int} {P Q : Prop} (ha : a = 0 ∨ a = 1) (hb : b = 0 ∨ b = 1) (hP : a = 1 ↔ P)
    (hQ : b = 1 ↔ Q) (h : P ↔ Q) : a = b := by
  rcases ha with ha | ha <;> rcases hb with hb | hb
  · rw [ha, hb]
  · exact absurd (hP.2 (h.2 (hQ.1 hb))) (by omega)
  · exact absurd (hQ.2 (h.1 (hP.1 ha))) (by omega)
  · rw [ha, hb]

/-- Two packed rows contain the same example `s` at the same positions, with the same tokens and, at the
positions of real tokens, the same embedded inputs.  Nothing is said about the other examples. -/
structure SameExample {n : Nat} {H : Type} (s : Int) (seg seg' : Row n) (tokens tokens' : Row n)
    (x x' : Fin n → H) : Prop where
  pos : ∀ j, seg j = s ↔ seg' j = s
  tok : ∀ j, seg j = s → tokens j = tokens' j
  emb : ∀ j, seg j = s → tokens j > 0 → x j = x' j

theorem encode_isolated {n : Nat} {H : Type} (layers : List (Mask n n → (Fin n → H) → Fin n → H))
    (hl : ∀ l ∈ layers, Local l) (s : Int) (seg seg' tokens tokens' : Row n) (x x' : Fin n → H)
    (hs : SameExample s seg seg' tokens tokens' x x') (M M' : Mask n n)
    (hM : makeEncoderMask tokens (some seg) = some M) (hM' : makeEncoderMask tokens' (some seg') = some M')
    (j : Fin n) (hj : seg j = s) (htj : tokens j > 0) : encode layers M x j = encode layers M' x' j := by
  obtain ⟨N, h1, h2⟩ := encoder_mask tokens seg
  obtain ⟨N', h1', h2'⟩ := encoder_mask tokens' seg'
  rw [hM] at h1; rw [hM'] at h1'
  cases h1; cases h1'
  unfold encode
  induction layers generalizing x x' with
  | nil => exact hs.emb j hj htj
  | cons l ls ih =>
    refine ih (fun l hl' => hl l (List.mem_cons_of_mem _ hl')) _ _ ⟨hs.pos, hs.tok, ?_⟩
    intro j hj htj
    apply hl l (List.mem_cons_self ..)
    · exact ⟨j, by have := ((h2 j j).2).2 ⟨htj, htj, rfl⟩; omega⟩
    · intro k
      refine eq_of_01 (h2 j k).1 (h2' j k).1 (h2 j k).2 (h2' j k).2 ?_
      rw [hs.tok j hj]
      have hj' := (hs.pos j).1 hj
      constructor
      · rintro ⟨a, b, c⟩
        have hk : seg k = s := by rw [← c]; exact hj
        exact ⟨a, by rw [← hs.tok k hk]; exact b, by rw [hj', (hs.pos k).1 hk]⟩
      · rintro ⟨a, b, c⟩
        have hk : seg k = s := (hs.pos k).2 (by rw [← c]; exact hj')
        exact ⟨a, by rw [hs.tok k hk]; exact b, by rw [hj, hk]⟩
    · exact hs.emb j hj htj
    · intro k hk
      obtain ⟨_, b, c⟩ := (h2 j k).2.1 ((h2 j k).1.resolve_left hk)
      exact hs.emb k (by rw [← c]; exact hj) b

theorem decode_isolated {n m : Nat} {H E : Type}
    (layers : List (Mask n n → Mask n m → (Fin m → E) → (Fin n → H) → Fin n → H))
    (hl : ∀ l ∈ layers, Local2 l) (s : Int) (ds ds' dt dt' : Row n) (es es' et et' : Row m)
    (x x' : Fin n → H) (e e' : Fin m → E)
    (hd : SameExample s ds ds' dt dt' x x') (he : SameExample s es es' et et' e e')
    (hne : ∃ j, es j = s ∧ et j > 0) (M M' : Mask n n) (C C' : Mask n m)
    (hM : makeDecoderMask dt none (some ds) = some M) (hM' : makeDecoderMask dt' none (some ds') = some M')
    (hC : makeEncoderDecoderMask dt et (some ds) (some es) = some C)
    (hC' : makeEncoderDecoderMask dt' et' (some ds') (some es') = some C')
    (j : Fin n) (hj : ds j = s) (htj : dt j > 0) : decode layers M C e x j = decode layers M' C' e' x' j := by
  obtain ⟨N, h1, h2⟩ := C11_decoder_mask dt none (some ds)
  obtain ⟨N', h1', h2'⟩ := C11_decoder_mask dt' none (some ds')
  obtain ⟨D, g1, g2⟩ := cross_mask dt et ds es
  obtain ⟨D', g1', g2'⟩ := cross_mask dt' et' ds' es'
  rw [hM] at h1; rw [hM'] at h1'; rw [hC] at g1; rw [hC'] at g1'
  cases h1; cases h1'; cases g1; cases g1'
  unfold decode
  induction layers generalizing x x' with
  | nil => exact hd.emb j hj htj
  | cons l ls ih =>
    refine ih (fun l hl' => hl l (List.mem_cons_of_mem _ hl')) _ _ ⟨hd.pos, hd.tok, ?_⟩
    intro j hj htj
    have hj' := (hd.pos j).1 hj
    apply hl l (List.mem_cons_self ..)
    · exact ⟨j, by have := ((h2 j j).2).2 ⟨htj, htj, Or.inl le_rfl, by simp⟩; omega⟩
    · obtain ⟨k, hk, htk⟩ := hne
      exact ⟨k, by have := ((g2 j k).2).2 ⟨htj, htk, by rw [hj, hk]⟩; omega⟩
    · intro k
      refine eq_of_01 (h2 j k).1 (h2' j k).1 (h2 j k).2 (h2' j k).2 ?_
      unfold mayAttend
      rw [hd.tok j hj]
      constructor
      · rintro ⟨a, b, c, d⟩
        have hk : ds k = s := by rw [← d ds rfl]; exact hj
        refine ⟨a, by rw [← hd.tok k hk]; exact b, c, fun s' hs' => ?_⟩
        cases hs'
        rw [hj', (hd.pos k).1 hk]
      · rintro ⟨a, b, c, d⟩
        have hk : ds k = s := (hd.pos k).2 (by rw [← d ds' rfl]; exact hj')
        refine ⟨a, by rw [hd.tok k hk]; exact b, c, fun s' hs' => ?_⟩
        cases hs'
        rw [hj, hk]
    · intro k
      refine eq_of_01 (g2 j k).1 (g2' j k).1 (g2 j k).2 (g2' j k).2 ?_
      rw [hd.tok j hj]
      constructor
      · rintro ⟨a, b, c⟩
        have hk : es k = s := by rw [← c]; exact hj
        exact ⟨a, by rw [← he.tok k hk]; exact b, by rw [hj', (he.pos k).1 hk]⟩
      · rintro ⟨a, b, c⟩
        have hk : es k = s := (he.pos k).2 (by rw [← c]; exact hj')
        exact ⟨a, by rw [he.tok k hk]; exact b, by rw [hj, hk]⟩
    · exact hd.emb j hj htj
    · intro k hk
      obtain ⟨_, b, c, d⟩ := (h2 j k).2.1 ((h2 j k).1.resolve_left hk)
      exact hd.emb k (by rw [← d ds rfl]; exact hj) b
    · intro k hk
      obtain ⟨_, b, c⟩ := (g2 j k).2.1 ((g2 j k).1.resolve_left hk)
      exact he.emb k (by rw [← c]; exact hj) b

/-- C54: an encoder-decoder model on packed rows computes, at every real target position of an example,
a value that does not depend on the other examples packed into the row, for any number of layers; the
example must have at least one real encoder token. -/
theorem C54_packing_isolation {n m : Nat} {H E : Type}
    (encLayers : List (Mask m m → (Fin m → E) → Fin m → E))
    (decLayers : List (Mask n n → Mask n m → (Fin m → E) → (Fin n → H) → Fin n → H))
    (hel : ∀ l ∈ encLayers, Local l) (hdl : ∀ l ∈ decLayers, Local2 l)
    (s : Int) (ds ds' dt dt' : Row n) (es es' et et' : Row m) (x x' : Fin n → H) (e e' : Fin m → E)
    (hd : SameExample s ds ds' dt dt' x x') (he : SameExample s es es' et et' e e')
    (hne : ∃ j, es j = s ∧ et j > 0) :
    ∃ A A' M M' C C', makeEncoderMask et (some es) = some A ∧ makeEncoderMask et' (some es') = some A' ∧
      makeDecoderMask dt none (some ds) = some M ∧ makeDecoderMask dt' none (some ds') = some M' ∧
      makeEncoderDecoderMask dt et (some ds) (some es) = some C ∧
      makeEncoderDecoderMask dt' et' (some ds') (some es') = some C' ∧
      ∀ j, ds j = s → dt j > 0 →
        decode decLayers M C (encode encLayers A e) x j =
          decode decLayers M' C' (encode encLayers A' e') x' j := by
  obtain ⟨A, hA, _⟩ := encoder_mask et es
  obtain ⟨A', hA', _⟩ := encoder_mask et' es'
  obtain ⟨M, hM, _⟩ := C11_decoder_mask dt none (some ds)
  obtain ⟨M', hM', _⟩ := C11_decoder_mask dt' none (some ds')
  obtain ⟨C, hC, _⟩ := cross_mask dt et ds es
  obtain ⟨C', hC', _⟩ := cross_mask dt' et' ds' es'
  refine ⟨A, A', M, M', C, C', hA, hA', hM, hM', hC, hC', fun j hj htj => ?_⟩
  refine decode_isolated decLayers hdl s ds ds' dt dt' es es' et et' x x' _ _ hd ?_ hne M M' C C' hM hM' hC hC'
    j hj htj
  exact ⟨he.pos, he.tok, fun k hk htk =>
    encode_isolated encLayers hel s es es' et et' e e' he A A' hA hA' k hk htk⟩

/-- Two rows which share example 1 and differ elsewhere. -/
example : SameExample 1 ![1, 1, 2, 2] ![1, 1, 3, 0] ![7, 8, 5, 6] ![7, 8, 9, 0]
    (![7, 8, 5, 6] : Fin 4 → Int) ![7, 8, 9, 0] ∧ (∃ j, (![1, 1, 2, 2] : Row 4) j = 1 ∧ (![7, 8, 5, 6] : Row 4) j > 0) :=
  ⟨⟨by decide, by decide, by decide⟩, 0, by decide⟩

/-- A decoder layer with a uniform average over all keys when a row is fully masked, as softmax over
equal biases gives (here: a sum). -/
def sumLayer2 : Mask 2 2 → Mask 2 2 → (Fin 2 → Int) → (Fin 2 → Int) → Fin 2 → Int :=
  fun _ C e x i =>
    if (∃ j, C i j ≠ 0) then x i + (if C i 0 ≠ 0 then e 0 else 0) + (if C i 1 ≠ 0 then e 1 else 0)
    else x i + e 0 + e 1

/-- C54: the condition is needed.  If an example has no encoder tokens, its decoder positions see a fully
masked row, and the other example leaks into them. -/
theorem C54_leak_without_encoder_tokens : Local2 sumLayer2 ∧
    ∃ (dt ds et et' es : Row 2) (M : Mask 2 2) (C C' : Mask 2 2),
      makeDecoderMask dt none (some ds) = some M ∧
      makeEncoderDecoderMask dt et (some ds) (some es) = some C ∧
      makeEncoderDecoderMask dt et' (some ds) (some es) = some C' ∧
      (∀ j, es j = ds 1 → et j = et' j) ∧ dt 1 > 0 ∧
      decode [sumLayer2] M C et dt 1 ≠ decode [sumLayer2] M C' et' dt 1 := by
  constructor
  · intro M M' C C' e e' x x' i _ hC _ hCC hx _ he
    have hC' : ∃ j, C' i j ≠ 0 := by
      obtain ⟨j, hj⟩ := hC
      exact ⟨j, by rw [← hCC j]; exact hj⟩
    simp only [sumLayer2, if_pos hC, if_pos hC', ← hCC, hx]
    by_cases h0 : C i 0 = 0 <;> by_cases h1 : C i 1 = 0 <;> simp [h0, h1, he]
  · refine ⟨![4, 5], ![1, 2], ![3, 0], ![8, 0], ![1, 0], _, _, _, rfl, rfl, rfl, ?_, ?_, ?_⟩
    · decide
    · decide
    · decide

end Verif.Masks
