import Verif.Model.RelPos
/-
Property C12: relative position buckets.
-/
namespace Verif.RelPos

namespace Spec
/-- What is used about the computed logarithm, for nb buckets on this side: non-decreasing, above -1 at
the first distance past the exact range, and at least (nb - nb/2) - 1 at max_distance. -/
structure LogLike (f : ℕ → ℝ) (maxDistance nb : ℕ) : Prop where
  mono : ∀ a b, nb / 2 ≤ a → a ≤ b → f a ≤ f b
  start : -1 < f (nb / 2)
  stop : ((nb : ℝ) - (nb / 2 : ℕ)) - 1 ≤ f maxDistance
end Spec
open Spec

/-- In exact arithmetic the logarithm has these properties. -/
theorem exactLog_logLike (eps : ℝ) (heps : 0 ≤ eps) (maxDistance nb : ℕ) (h2 : 2 ≤ nb)
    (hd : nb / 2 < maxDistance) : LogLike (exactLog eps maxDistance (nb / 2) nb) maxDistance nb := by
  have hme : 1 ≤ nb / 2 := by omega
  have hme' : (0 : ℝ) < (nb / 2 : ℕ) := by exact_mod_cast hme
  have hlog : 0 < Real.log ((maxDistance : ℝ) / (nb / 2 : ℕ)) := by
    apply Real.log_pos
    rw [one_lt_div hme']
    exact_mod_cast hd
  have hnb : (0 : ℝ) < (nb : ℝ) - (nb / 2 : ℕ) := by
    have : nb / 2 < nb := by omega
    have : ((nb / 2 : ℕ) : ℝ) < nb := by exact_mod_cast this
    linarith
  refine ⟨?_, ?_, ?_⟩
  · intro a b ha hab
    unfold exactLog
    apply mul_le_mul_of_nonneg_right _ hnb.le
    apply div_le_div_of_nonneg_right _ hlog.le
    apply Real.log_le_log
    · have : (0 : ℝ) < a / (nb / 2 : ℕ) := div_pos (by exact_mod_cast (by omega : 0 < a)) hme'
      linarith
    · have : (a : ℝ) / (nb / 2 : ℕ) ≤ b / (nb / 2 : ℕ) := by
        apply div_le_div_of_nonneg_right _ hme'.le
        exact_mod_cast hab
      linarith
  · unfold exactLog
    have h1 : 0 ≤ Real.log (((nb / 2 : ℕ) : ℝ) / (nb / 2 : ℕ) + eps) := by
      apply Real.log_nonneg
      rw [div_self hme'.ne']
      linarith
    have : 0 ≤ Real.log (((nb / 2 : ℕ) : ℝ) / (nb / 2 : ℕ) + eps) / Real.log ((maxDistance : ℝ) / (nb / 2 : ℕ)) *
        ((nb : ℝ) - (nb / 2 : ℕ)) := mul_nonneg (div_nonneg h1 hlog.le) hnb.le
    linarith
  · unfold exactLog
    have h1 : Real.log ((maxDistance : ℝ) / (nb / 2 : ℕ)) ≤ Real.log ((maxDistance : ℝ) / (nb / 2 : ℕ) + eps) := by
      apply Real.log_le_log
      · exact div_pos (by exact_mod_cast (by omega : 0 < maxDistance)) hme'
      · linarith
    have h2 : 1 ≤ Real.log ((maxDistance : ℝ) / (nb / 2 : ℕ) + eps) / Real.log ((maxDistance : ℝ) / (nb / 2 : ℕ)) := by
      rw [one_le_div hlog]; exact h1
    nlinarith

theorem trunc_mono {a b : ℝ} (h : a ≤ b) : trunc a ≤ trunc b := by
  unfold trunc
  by_cases ha : 0 ≤ a
  · rw [if_pos ha, if_pos (ha.trans h)]; exact Int.floor_le_floor h
  · rw [if_neg ha]
    by_cases hb : 0 ≤ b
    · rw [if_pos hb]
      have h1 : ⌈a⌉ ≤ 0 := Int.ceil_le.2 (by push_cast; linarith)
      have h2 : 0 ≤ ⌊b⌋ := Int.floor_nonneg.2 hb
      omega
    · rw [if_neg hb]; exact Int.ceil_le_ceil h

theorem trunc_nonneg {a : ℝ} (h : -1 < a) : 0 ≤ trunc a := by
  unfold trunc
  by_cases ha : 0 ≤ a
  · rw [if_pos ha]; exact Int.floor_nonneg.2 ha
  · rw [if_neg ha]
    have : -1 < ⌈a⌉ := Int.lt_ceil.2 (by push_cast; linarith)
    omega

theorem trunc_ge {a : ℝ} {k : ℤ} (h0 : 0 ≤ k) (h : (k : ℝ) ≤ a) : k ≤ trunc a := by
  unfold trunc
  rw [if_pos (le_trans (by exact_mod_cast h0) h)]
  exact Int.le_floor.2 h

section side
variable {f : ℕ → ℝ} {maxDistance nb : ℕ}

theorem side_range (h : LogLike f maxDistance nb) (h2 : 2 ≤ nb) (n : ℕ) : 0 ≤ side f nb n ∧ side f nb n < nb := by
  unfold side
  dsimp only
  by_cases hn : n < nb / 2
  · rw [if_pos hn]; omega
  · rw [if_neg hn]
    have h0 : 0 ≤ trunc (f n) := trunc_nonneg (lt_of_lt_of_le h.start (h.mono _ _ le_rfl (by omega)))
    omega

theorem side_mono (h : LogLike f maxDistance nb) (a b : ℕ) (hab : a ≤ b) : side f nb a ≤ side f nb b := by
  unfold side
  dsimp only
  by_cases hb : b < nb / 2
  · rw [if_pos hb, if_pos (by omega)]; omega
  · rw [if_neg hb]
    have h0 : 0 ≤ trunc (f b) := trunc_nonneg (lt_of_lt_of_le h.start (h.mono _ _ le_rfl (by omega)))
    by_cases ha : a < nb / 2
    · rw [if_pos ha]; omega
    · rw [if_neg ha]
      have := trunc_mono (h.mono a b (by omega) hab)
      omega

theorem side_far (h : LogLike f maxDistance nb) (h2 : 2 ≤ nb) (hd : nb / 2 < maxDistance) (n : ℕ)
    (hn : maxDistance ≤ n) : side f nb n = nb - 1 := by
  unfold side
  dsimp only
  rw [if_neg (by omega)]
  have h1 : (((nb : ℤ) - (nb / 2 : ℕ) - 1 : ℤ) : ℝ) ≤ f n := by
    refine le_trans ?_ (h.stop.trans (h.mono _ _ (by omega) hn))
    push_cast
    exact le_rfl
  have := trunc_ge (by omega) h1
  omega

theorem side_exact (n : ℕ) (hn : n < nb / 2) : side f nb n = n := by
  unfold side; dsimp only; rw [if_pos hn]
end side

/-- C12, one-sided (decoder): for relative position `rel = key - query` the bucket is in range, does not
decrease as the key moves further into the past, is the exact distance for the first num_buckets/2
distances, sends every future key to bucket 0, and is the last bucket from max_distance on. -/
theorem C12_unidirectional (f : ℕ → ℝ) (maxDistance numBuckets : ℕ) (h2 : 2 ≤ numBuckets)
    (hd : numBuckets / 2 < maxDistance) (hf : LogLike f maxDistance numBuckets) :
    (∀ rel : ℤ, 0 ≤ bucket f rel false numBuckets ∧ bucket f rel false numBuckets < numBuckets) ∧
    (∀ r r' : ℤ, r ≤ r' → bucket f r' false numBuckets ≤ bucket f r false numBuckets) ∧
    (∀ d : ℕ, d < numBuckets / 2 → bucket f (-d) false numBuckets = d) ∧
    (∀ rel : ℤ, 0 ≤ rel → bucket f rel false numBuckets = 0) ∧
    (∀ rel : ℤ, rel ≤ -(maxDistance : ℤ) → bucket f rel false numBuckets = numBuckets - 1) := by
  refine ⟨?_, ?_, ?_, ?_, ?_⟩
  · intro rel; exact side_range hf h2 _
  · intro r r' h; exact side_mono hf _ _ (by omega)
  · intro d hd'
    show side f numBuckets _ = _
    rw [show (max (-(-(d : ℤ))) 0).toNat = d by omega]
    exact side_exact d hd'
  · intro rel h
    show side f numBuckets _ = _
    rw [show (max (-rel) 0).toNat = 0 by omega]
    exact side_exact 0 (by omega)
  · intro rel h
    exact side_far hf h2 hd _ (by omega)

/-- C12, two-sided (encoder): buckets are in range; keys at or before the query use the lower half, keys
after it the upper half, so the two sides never share a bucket; on each side the bucket does not decrease
with distance, is exact for the first num_buckets/4 distances, and is the last of its half from
max_distance on.  For an odd num_buckets the last bucket is unused. -/
theorem C12_bidirectional (f : ℕ → ℝ) (maxDistance numBuckets : ℕ) (h4 : 4 ≤ numBuckets)
    (hd : numBuckets / 2 / 2 < maxDistance) (hf : LogLike f maxDistance (numBuckets / 2)) :
    (∀ rel : ℤ, rel ≤ 0 → 0 ≤ bucket f rel true numBuckets ∧ bucket f rel true numBuckets < (numBuckets / 2 : ℕ)) ∧
    (∀ rel : ℤ, 0 < rel → (numBuckets / 2 : ℕ) ≤ bucket f rel true numBuckets ∧
      bucket f rel true numBuckets < 2 * (numBuckets / 2 : ℕ)) ∧
    (∀ r r' : ℤ, r ≤ r' → r' ≤ 0 → bucket f r' true numBuckets ≤ bucket f r true numBuckets) ∧
    (∀ r r' : ℤ, 0 < r → r ≤ r' → bucket f r true numBuckets ≤ bucket f r' true numBuckets) ∧
    (∀ d : ℕ, d < numBuckets / 2 / 2 → bucket f (-d) true numBuckets = d ∧
      (0 < d → bucket f d true numBuckets = (numBuckets / 2 : ℕ) + d)) ∧
    (∀ rel : ℤ, rel ≤ -(maxDistance : ℤ) → bucket f rel true numBuckets = (numBuckets / 2 : ℕ) - 1) ∧
    (∀ rel : ℤ, (maxDistance : ℤ) ≤ rel → bucket f rel true numBuckets = 2 * (numBuckets / 2 : ℕ) - 1) := by
  have h2 : 2 ≤ numBuckets / 2 := by omega
  have neg : ∀ rel : ℤ, rel ≤ 0 → bucket f rel true numBuckets = side f (numBuckets / 2) (-rel).natAbs := by
    intro rel h
    unfold bucket; dsimp only
    rw [if_pos rfl, if_neg (by omega)]; simp
  have pos : ∀ rel : ℤ, 0 < rel → bucket f rel true numBuckets =
      (numBuckets / 2 : ℕ) + side f (numBuckets / 2) (-rel).natAbs := by
    intro rel h
    unfold bucket; dsimp only
    rw [if_pos rfl, if_pos (by omega)]; simp
  refine ⟨?_, ?_, ?_, ?_, ?_, ?_, ?_⟩
  · intro rel h; rw [neg rel h]; exact side_range hf h2 _
  · intro rel h
    rw [pos rel h]
    have := side_range hf h2 (-rel).natAbs
    omega
  · intro r r' h h'
    rw [neg r (by omega), neg r' h']
    exact side_mono hf _ _ (by omega)
  · intro r r' h h'
    rw [pos r h, pos r' (by omega)]
    have := side_mono hf (-r).natAbs (-r').natAbs (by omega)
    omega
  · intro d hd'
    constructor
    · rw [neg _ (by omega), show (-(-(d : ℤ))).natAbs = d by omega]; exact side_exact d hd'
    · intro h0
      rw [pos _ (by omega), show (-(d : ℤ)).natAbs = d by omega, side_exact d hd']
  · intro rel h
    rw [neg rel (by omega)]
    exact side_far hf h2 hd _ (by omega)
  · intro rel h
    rw [pos rel (by omega), side_far hf h2 hd _ (by omega)]
    omega

/-- The default parameters of the code (32 buckets, distance 128) satisfy the hypotheses. -/
example : LogLike (exactLog (2 ^ (-23 : ℤ)) 128 (32 / 2 / 2) (32 / 2)) 128 (32 / 2) ∧
    LogLike (exactLog (2 ^ (-23 : ℤ)) 128 (32 / 2) 32) 128 32 :=
  ⟨exactLog_logLike _ (by positivity) 128 16 (by omega) (by omega),
   exactLog_logLike _ (by positivity) 128 32 (by omega) (by omega)⟩

theorem sum_select (emb : ℤ → ℝ) (N : ℕ) (k : ℤ) (h0 : 0 ≤ k) (hN : k < N) :
    ((List.range N).map (fun b : ℕ => emb b * (if k = b then 1 else 0))).sum = emb k := by
  obtain ⟨m, rfl⟩ := Int.eq_ofNat_of_zero_le h0
  have hm : m < N := by omega
  clear hN h0
  induction N with
  | zero => omega
  | succ N ih =>
    rw [List.range_succ, List.map_append, List.sum_append]
    by_cases h : m = N
    · subst h
      have : ((List.range m).map (fun b : ℕ => emb b * (if ((m : ℕ) : ℤ) = b then 1 else 0))).sum = 0 := by
        apply List.sum_eq_zero
        intro x hx
        obtain ⟨b, hb, rfl⟩ := List.mem_map.1 hx
        have := List.mem_range.1 hb
        rw [if_neg (by omega), mul_zero]
      rw [this]; simp
    · rw [ih (by omega)]
      simp
      intro h'
      exact absurd h' h

/-- C12: the attention bias is the embedding of the bucket (the one-hot contraction never misses), it
depends only on the offset between key and query, and it is the same for all keys at least max_distance
in the past. -/
theorem C12_bias (f : ℕ → ℝ) (emb : ℤ → ℝ) (maxDistance numBuckets : ℕ) (h2 : 2 ≤ numBuckets)
    (hd : numBuckets / 2 < maxDistance) (hf : LogLike f maxDistance numBuckets) :
    (∀ i j, bias f emb false numBuckets i j = emb (bucket f ((j : ℤ) - i) false numBuckets)) ∧
    (∀ i j c, bias f emb false numBuckets (i + c) (j + c) = bias f emb false numBuckets i j) ∧
    (∀ i j, j + maxDistance ≤ i → bias f emb false numBuckets i j = emb (numBuckets - 1)) ∧
    (∀ i j, i ≤ j → bias f emb false numBuckets i j = emb 0) := by
  obtain ⟨h1, _, _, h4, h5⟩ := C12_unidirectional f maxDistance numBuckets h2 hd hf
  have key : ∀ i j, bias f emb false numBuckets i j = emb (bucket f ((j : ℤ) - i) false numBuckets) := by
    intro i j
    exact sum_select emb numBuckets _ (h1 _).1 (h1 _).2
  refine ⟨key, ?_, ?_, ?_⟩
  · intro i j c
    rw [key, key]
    congr 2
    push_cast; ring
  · intro i j h
    rw [key, h5 _ (by omega)]
  · intro i j h
    rw [key, h4 _ (by omega)]

end Verif.RelPos
