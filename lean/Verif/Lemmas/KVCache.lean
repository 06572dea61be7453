import Verif.Model.KVCache
import Verif.Common
/- Lemmas about attention with and without a cache. -/
namespace Verif.KVCache
open Verif.Masks

variable {H Y : Type} {h d m : Nat}

/-- Sums over arrays of different lengths agree when the terms agree up to `i` and vanish beyond. -/
theorem sum_prefix {n L i : Nat} (hn : i < n) (hL : i < L) (f : Fin n → ℝ) (g : Fin L → ℝ)
    (hf : ∀ j : Fin n, i < j.val → f j = 0) (hg : ∀ j : Fin L, i < j.val → g j = 0)
    (e : ∀ (j : Nat) (h1 : j < n) (h2 : j < L), j ≤ i → f ⟨j, h1⟩ = g ⟨j, h2⟩) : ∑ j, f j = ∑ j, g j := by
  let F : Nat → ℝ := fun j => if h1 : j < n then f ⟨j, h1⟩ else 0
  let G : Nat → ℝ := fun j => if h1 : j < L then g ⟨j, h1⟩ else 0
  have e1 : ∑ j, f j = ∑ j ∈ Finset.range n, F j := by
    rw [← Fin.sum_univ_eq_sum_range]
    exact Finset.sum_congr rfl fun j _ => by simp [F]
  have e2 : ∑ j, g j = ∑ j ∈ Finset.range L, G j := by
    rw [← Fin.sum_univ_eq_sum_range]
    exact Finset.sum_congr rfl fun j _ => by simp [G]
  have e3 : ∑ j ∈ Finset.range n, F j = ∑ j ∈ Finset.range (i + 1), F j := by
    symm
    refine Finset.sum_subset (fun j hj => by simp only [Finset.mem_range] at hj ⊢; omega) fun j hj hj' => ?_
    simp only [Finset.mem_range] at hj hj'
    simp only [F, hj, dite_true]
    exact hf _ (by simp only; omega)
  have e4 : ∑ j ∈ Finset.range L, G j = ∑ j ∈ Finset.range (i + 1), G j := by
    symm
    refine Finset.sum_subset (fun j hj => by simp only [Finset.mem_range] at hj ⊢; omega) fun j hj hj' => ?_
    simp only [Finset.mem_range] at hj hj'
    simp only [G, hj, dite_true]
    exact hg _ (by simp only; omega)
  rw [e1, e2, e3, e4]
  refine Finset.sum_congr rfl fun j hj => ?_
  simp only [Finset.mem_range] at hj
  have h1 : j < n := by omega
  have h2 : j < L := by omega
  simp only [F, G, h1, h2, dite_true]
  exact e j h1 h2 (by omega)

/-- Attention over arrays of different lengths, both masked beyond `i` and equally masked up to `i`. -/
theorem attend_prefix {n L i : Nat} (hn : i < n) (hL : i < L) (q : Heads h d) (K V : Fin n → Heads h d) (K' V' : Fin L → Heads h d)
    (b : Fin h → Fin n → ℝ) (b' : Fin h → Fin L → ℝ) (M : Fin n → Int) (M' : Fin L → Int)
    (hM : ∀ j : Fin n, M j > 0 → j.val ≤ i) (hM' : ∀ j : Fin L, M' j > 0 → j.val ≤ i)
    (eM : ∀ (j : Nat) (h1 : j < n) (h2 : j < L), j ≤ i → (M ⟨j, h1⟩ > 0 ↔ M' ⟨j, h2⟩ > 0))
    (eK : ∀ (j : Nat) (h1 : j < n) (h2 : j < L), j ≤ i → K ⟨j, h1⟩ = K' ⟨j, h2⟩)
    (eV : ∀ (j : Nat) (h1 : j < n) (h2 : j < L), j ≤ i → V ⟨j, h1⟩ = V' ⟨j, h2⟩)
    (eb : ∀ hd (j : Nat) (h1 : j < n) (h2 : j < L), j ≤ i → b hd ⟨j, h1⟩ = b' hd ⟨j, h2⟩) :
    attend q K V b M = attend q K' V' b' M' := by
  have hnot : ∀ j : Fin n, i < j.val → ¬ M j > 0 := fun j hj h => by have := hM j h; omega
  have hnot' : ∀ j : Fin L, i < j.val → ¬ M' j > 0 := fun j hj h => by have := hM' j h; omega
  have ew : ∀ hd (j : Nat) (h1 : j < n) (h2 : j < L), j ≤ i →
      (if M ⟨j, h1⟩ > 0 then Real.exp ((∑ c, q hd c * K ⟨j, h1⟩ hd c) + b hd ⟨j, h1⟩) else 0) =
      (if M' ⟨j, h2⟩ > 0 then Real.exp ((∑ c, q hd c * K' ⟨j, h2⟩ hd c) + b' hd ⟨j, h2⟩) else 0) := by
    intro hd j h1 h2 hj
    rw [eK j h1 h2 hj, eb hd j h1 h2 hj]
    exact if_congr (eM j h1 h2 hj) rfl rfl
  funext hd e
  have eS : (∑ j, if M j > 0 then Real.exp ((∑ c, q hd c * K j hd c) + b hd j) else 0) =
      ∑ j, if M' j > 0 then Real.exp ((∑ c, q hd c * K' j hd c) + b' hd j) else 0 := by
    refine sum_prefix hn hL _ _ (fun j hj => if_neg (hnot j hj)) (fun j hj => if_neg (hnot' j hj)) (ew hd)
  simp only [attend]
  rw [eS]
  refine sum_prefix hn hL _ _ (fun j hj => ?_) (fun j hj => ?_) fun j h1 h2 hj => ?_
  · rw [if_neg (hnot j hj)]; simp
  · rw [if_neg (hnot' j hj)]; simp
  · rw [ew hd j h1 h2 hj, eV j h1 h2 hj]

/-- What the cache of a layer contains after `i` tokens of the sequence `x`. -/
def cacheAt {n : Nat} (L : Nat) (l : Layer H h d m) (x : Fin n → H) (i : Nat) : Cache h d L :=
  ⟨fun hd e j => if hj : j.val < i ∧ j.val < n then l.key (l.norm (x ⟨j.val, hj.2⟩)) hd e else 0,
   fun hd e j => if hj : j.val < i ∧ j.val < n then l.value (l.norm (x ⟨j.val, hj.2⟩)) hd e else 0, i⟩

theorem scatter {n L : Nat} (f : H → Heads h d) (x : Fin n → H) (i : Fin n) (hd : Fin h) (e : Fin d) (j : Fin L) :
    (if hj : j.val < i.val ∧ j.val < n then f (x ⟨j.val, hj.2⟩) hd e else 0) + f (x i) hd e * oneHot i.val L j =
    if hj : j.val < i.val + 1 ∧ j.val < n then f (x ⟨j.val, hj.2⟩) hd e else 0 := by
  have hi := i.2
  unfold oneHot
  by_cases h1 : j.val = i.val
  · rw [dif_neg (by omega), if_pos h1, dif_pos (by omega)]
    have : (⟨j.val, by omega⟩ : Fin n) = i := Fin.ext h1
    rw [this]; ring
  · rw [if_neg h1]
    by_cases h2 : j.val < i.val
    · rw [dif_pos ⟨h2, by omega⟩, dif_pos ⟨by omega, by omega⟩]; ring
    · rw [dif_neg (by omega), dif_neg (by omega)]; ring

theorem layerStep_spec {n L : Nat} (hnL : n ≤ L) (l : Layer H h d m) (mask : Mask n n) (cross : Mask n m) (row : Fin m → Int)
    (rel : Fin h → Nat → Nat → ℝ) (brow : Nat → Fin h → Fin L → ℝ) (x : Fin n → H) (i : Fin n)
    (hmask : ∀ j, mask i j > 0 ↔ j.val ≤ i.val) (hcross : cross i = row) (hb : ∀ hd j, brow i.val hd j = rel hd i.val j.val) :
    layerStep l row brow (cacheAt L l x i.val) (x i) = (layerFull l mask cross (biasMatrix n rel) x i, cacheAt L l x (i.val + 1)) := by
  have hi := i.2
  have e1 := fun hd e j => scatter (L := L) (fun z => l.key (l.norm z)) x i hd e j
  have e2 := fun hd e j => scatter (L := L) (fun z => l.value (l.norm z)) x i hd e j
  simp only [layerStep, attentionStep, cacheAt, e1, e2, layerFull, attention, biasMatrix, hcross]
  rw [attend_prefix (i := i.val) (L := L) hi (by omega)]
  · exact fun j hj => (hmask j).1 hj
  · intro j
    simp only [ofBool]
    by_cases hj : j.val ≤ i.val <;> simp [hj]
  · intro j h1 h2 hj
    rw [hmask]
    simp [ofBool, hj]
  · intro j h1 h2 hj
    funext hd e
    rw [dif_pos ⟨by simp only; omega, h1⟩]
  · intro j h1 h2 hj
    funext hd e
    rw [dif_pos ⟨by simp only; omega, h1⟩]
  · intro hd j h1 h2 hj
    exact (hb hd ⟨j, h2⟩).symm

noncomputable def cachesAt {n : Nat} (L : Nat) (mask : Mask n n) (cross : Mask n m) (rel : Fin h → Nat → Nat → ℝ) :
    List (Layer H h d m) → (Fin n → H) → Nat → List (Layer H h d m × Cache h d L)
  | [], _, _ => []
  | l :: ls, x, i => (l, cacheAt L l x i) :: cachesAt L mask cross rel ls (layerFull l mask cross (biasMatrix n rel) x) i

theorem cachesAt_zero {n : Nat} (L : Nat) (mask : Mask n n) (cross : Mask n m) (rel : Fin h → Nat → Nat → ℝ)
    (ls : List (Layer H h d m)) : ∀ x : Fin n → H, cachesAt L mask cross rel ls x 0 = ls.map fun l => (l, Cache.init h d L) := by
  induction ls with
  | nil => intro x; rfl
  | cons l ls ih =>
    intro x
    simp only [cachesAt, List.map_cons, ih]
    simp [cacheAt, Cache.init]

theorem stackStep_spec {n L : Nat} (hnL : n ≤ L) (mask : Mask n n) (cross : Mask n m) (row : Fin m → Int)
    (rel : Fin h → Nat → Nat → ℝ) (brow : Nat → Fin h → Fin L → ℝ) (i : Fin n) (hmask : ∀ j, mask i j > 0 ↔ j.val ≤ i.val)
    (hcross : cross i = row) (hb : ∀ hd j, brow i.val hd j = rel hd i.val j.val) (ls : List (Layer H h d m)) : ∀ x : Fin n → H,
    stackStep row brow (cachesAt L mask cross rel ls x i.val) (x i) =
      (stackFull ls mask cross rel x i, cachesAt L mask cross rel ls x (i.val + 1)) := by
  induction ls with
  | nil => intro x; rfl
  | cons l ls ih =>
    intro x
    simp only [cachesAt, stackStep, layerStep_spec hnL l mask cross row rel brow x i hmask hcross hb]
    rw [ih]
    rfl

theorem makeAttentionMask_apply {n m : Nat} (q : Row n) (k : Row m) (f : Int → Int → Int) (i : Fin n) (j : Fin m) :
    makeAttentionMask q k f i j = f (q i) (k j) := rfl

theorem mask_spec {n : Nat} (targets : Row n) (ca : Option (Row n)) : ∃ M, makeDecoderMask targets ca none = some M ∧
    ∀ i j, M i j > 0 ↔ (j.val ≤ i.val ∨ ∃ c, ca = some c ∧ c i ≠ 0 ∧ c j ≠ 0) ∧ targets i > 0 ∧ targets j > 0 := by
  cases ca with
  | none =>
    refine ⟨_, rfl, fun i j => ?_⟩
    simp only [List.foldl, makeCausalMask, makeAttentionMask_apply, logicalAnd, greaterEqual, multiply, ofBool]
    by_cases h1 : j ≤ i <;> by_cases h2 : targets i > 0 <;> by_cases h3 : targets j > 0 <;> simp [makeAttentionMask_apply, greaterEqual, multiply, logicalAnd, ofBool, h1, h2, h3]
  | some c =>
    refine ⟨_, rfl, fun i j => ?_⟩
    simp only [List.foldl, makeCausalMask, makeAttentionMask_apply, logicalAnd, logicalOr, greaterEqual, multiply, ofBool]
    by_cases h1 : j ≤ i <;> by_cases h2 : targets i > 0 <;> by_cases h3 : targets j > 0 <;>
      by_cases h4 : c i = 0 <;> by_cases h5 : c j = 0 <;> simp [makeAttentionMask_apply, greaterEqual, multiply, logicalAnd, logicalOr, ofBool, h1, h2, h3, h4, h5]

/-- Feeding tokens one by one: if the step function takes the state for position `i` to that for `i + 1` and outputs `out i`, for every
position from `p` to `t`, then the outputs are those. -/
theorem feed_spec {S : Type} {n : Nat} (f : S → Int → Y × S) (at' : Nat → S) (inputs : Row n) (out : Fin n → Y) (p t : Nat) (ht : t < n)
    (hstep : ∀ i : Fin n, p ≤ i.val → i.val ≤ t → f (at' i.val) (inputs i) = (out i, at' (i.val + 1))) :
    ∀ k i, p ≤ i → i + k = t → (feed f (at' i) ((List.ofFn inputs).drop i))[k]? = some (out ⟨t, ht⟩) := by
  intro k
  induction k with
  | zero =>
    intro i hp hi
    have hi' : i = t := by omega
    subst hi'
    have hl : i < (List.ofFn inputs).length := by rw [List.length_ofFn]; exact ht
    rw [List.drop_eq_getElem_cons hl, List.getElem_ofFn]
    have e := hstep ⟨i, ht⟩ hp le_rfl
    simp only [feed, e, List.getElem?_cons_zero]
  | succ k ih =>
    intro i hp hi
    have hin : i < n := by omega
    have hl : i < (List.ofFn inputs).length := by rw [List.length_ofFn]; exact hin
    rw [List.drop_eq_getElem_cons hl, List.getElem_ofFn]
    have e := hstep ⟨i, hin⟩ hp (by simp only; omega)
    simp only [feed, e, List.getElem?_cons_succ]
    exact ih (i + 1) (by omega) (by omega)

/-- Two masks that agree on the rows up to `p`, and let those see nothing beyond `p`, give the same hidden states up to `p`. -/
theorem layerFull_congr {n : Nat} (p : Fin n) (l : Layer H h d m) (M M' : Mask n n) (cross : Mask n m) (bias : Fin h → Fin n → Fin n → ℝ)
    (hM : ∀ i j, i ≤ p → (M i j > 0 ↔ M' i j > 0)) (hM' : ∀ i j, i ≤ p → M' i j > 0 → j ≤ p) (x y : Fin n → H) (hxy : ∀ i, i ≤ p → x i = y i) :
    ∀ i, i ≤ p → layerFull l M cross bias x i = layerFull l M' cross bias y i := by
  intro i hi
  simp only [layerFull, attention, hxy i hi]
  congr 2
  congr 1
  refine attend_prefix (i := p.val) p.isLt p.isLt _ _ _ _ _ _ _ _ _ (fun j hj => hM' i j hi ((hM i j hi).1 hj)) (fun j hj => hM' i j hi hj)
    (fun j h1 h2 hj => hM i _ hi) (fun j h1 h2 hj => ?_) (fun j h1 h2 hj => ?_) (fun _ _ _ _ _ => rfl)
  · rw [hxy ⟨j, h1⟩ hj]
  · rw [hxy ⟨j, h1⟩ hj]

/-- The caches left by the prefill are those of step-by-step decoding of the first `p` tokens in the full pass. -/
theorem prefillStack_spec {n : Nat} (p : Fin n) (M M' : Mask n n) (rel : Fin h → Nat → Nat → ℝ)
    (hM : ∀ i j, i ≤ p → (M i j > 0 ↔ M' i j > 0)) (hM' : ∀ i j, i ≤ p → M' i j > 0 → j ≤ p) (ls : List (Layer H h d 0)) :
    ∀ x y : Fin n → H, (∀ i, i ≤ p → x i = y i) → prefillStack M rel p.val ls x = cachesAt n M' (noCross n) rel ls y p.val := by
  induction ls with
  | nil => intro x y hxy; rfl
  | cons l ls ih =>
    intro x y hxy
    simp only [prefillStack, cachesAt]
    rw [ih _ (layerFull l M' (noCross n) (biasMatrix n rel) y) (layerFull_congr p l M M' _ _ hM hM' x y hxy)]
    congr 2
    simp only [prefillCache, cacheAt, Cache.mk.injEq, and_true]
    constructor <;> funext hd e j <;> by_cases hj : j.val < p.val
    · rw [if_pos hj, dif_pos ⟨hj, j.isLt⟩, hxy j (show j.val ≤ p.val by omega)]; ring
    · rw [if_neg hj, dif_neg (by omega)]; ring
    · rw [if_pos hj, dif_pos ⟨hj, j.isLt⟩, hxy j (show j.val ≤ p.val by omega)]; ring
    · rw [if_neg hj, dif_neg (by omega)]; ring

theorem einsumRow_eq (L : Nat) (rel : Fin h → Nat → Nat → ℝ) (i : Nat) (hi : i < L) (hd : Fin h) (j : Fin L) :
    einsumRow L rel i hd j = rel hd i j.val := by
  unfold einsumRow oneHot
  rw [Finset.sum_eq_single (⟨i, hi⟩ : Fin L)]
  · simp
  · intro q _ hq
    have : q.val ≠ i := fun e => hq (Fin.ext e)
    simp [this]
  · intro hq; exact absurd (Finset.mem_univ _) hq

end Verif.KVCache
