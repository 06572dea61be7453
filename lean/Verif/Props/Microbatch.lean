import Verif.Spec.Train
import Verif.Props.Metrics
/- Property C31. -/
namespace Verif.Train
open Spec Verif.Metrics Verif.Metrics.Spec

variable {K P G O Mu R Row : Type}

theorem take_drop_getElem? (rows : List Row) (a m i : Nat) (hi : i < m) : ((rows.drop a).take m)[i]? = rows[a + i]? := by
  rw [List.getElem?_take_of_lt hi, List.getElem?_drop]

theorem getMicrobatch_ok (b : Batch Row) (B size i : Nat) (hb : ∀ e ∈ b, e.2.length = B) (h : i * size + size ≤ B) :
    getMicrobatch size i b = .ok (b.map (fun e => (e.1, (e.2.drop (i * size)).take size))) := by
  induction b with
  | nil => rfl
  | cons e b ih =>
    obtain ⟨k, rows⟩ := e
    have hl : rows.length = B := hb (k, rows) (List.mem_cons_self ..)
    have hs : dynamicSlice rows (i * size) size = .ok ((rows.drop (i * size)).take size) := by
      unfold dynamicSlice
      rw [if_neg (by omega), Nat.min_eq_left (by omega)]
    simp only [getMicrobatch, hs, ih (fun e he => hb e (List.mem_cons_of_mem _ he)), List.map_cons]

/-- The examples of a microbatch are the corresponding part of the examples of the batch. -/
theorem micro_examples (b : Batch Row) (B size i : Nat) (h : i * size + size ≤ B) :
    examples (b.map (fun e => (e.1, (e.2.drop (i * size)).take size))) size = ((examples b B).drop (i * size)).take size := by
  unfold examples
  apply List.ext_getElem?
  intro j
  by_cases hj : j < size
  · rw [List.getElem?_take_of_lt hj, List.getElem?_drop, List.getElem?_map, List.getElem?_map, List.getElem?_range hj,
      List.getElem?_range (by omega)]
    simp only [Option.map_some, exampleAt, List.map_map, Option.some.injEq]
    apply List.map_congr_left
    intro e _
    simp only [Function.comp, Prod.mk.injEq, true_and]
    exact take_drop_getElem? e.2 _ _ _ hj
  · rw [List.getElem?_eq_none (by simp; omega), List.getElem?_eq_none (by simp; omega)]

theorem micro_rect (b : Batch Row) (B size i : Nat) (hb : Rect b B) (h : i * size + size ≤ B) :
    Rect (b.map (fun e => (e.1, (e.2.drop (i * size)).take size))) size := by
  refine ⟨by simpa using hb.1, ?_⟩
  intro e he
  obtain ⟨e0, h0, rfl⟩ := List.mem_map.1 he
  have := hb.2 e0 h0
  simp; omega

/-- C31: with n microbatches where n divides the batch size, the microbatches hold each example exactly once, in
order. -/
theorem C31_cover (b : Batch Row) (B n : Nat) (hb : Rect b B) (hn : n ∣ B) :
    ∃ mbs : List (Batch Row), mbs.length = n ∧ (∀ i (h : i < mbs.length), getMicrobatch (B / n) i b = .ok mbs[i] ∧ Rect mbs[i] (B / n)) ∧
      mbs.flatMap (fun mb => examples mb (B / n)) = examples b B := by
  obtain ⟨s, rfl⟩ := hn
  by_cases hn0 : n = 0
  · subst hn0; exact ⟨[], rfl, by simp, by simp [examples]⟩
  have hs : n * s / n = s := Nat.mul_div_cancel_left _ (by omega)
  rw [hs]
  have hle : ∀ i, i < n → i * s + s ≤ n * s := by
    intro i hi; have := Nat.mul_le_mul_right s (show i + 1 ≤ n by omega); rw [Nat.add_mul, Nat.one_mul] at this; omega
  refine ⟨(List.range n).map (fun i => b.map (fun e => (e.1, (e.2.drop (i * s)).take s))), by simp, ?_, ?_⟩
  · intro i hi
    simp only [List.length_map, List.length_range] at hi
    simp only [List.getElem_map, List.getElem_range]
    exact ⟨getMicrobatch_ok b (n * s) s i hb.2 (hle i hi), micro_rect b (n * s) s i hb (hle i hi)⟩
  · have key : ∀ m, m ≤ n → ((List.range m).map (fun i => b.map (fun e => (e.1, (e.2.drop (i * s)).take s)))).flatMap
        (fun mb => examples mb s) = (examples b (n * s)).take (m * s) := by
      intro m
      induction m with
      | zero => intro _; simp
      | succ m ih =>
        intro hm
        rw [List.range_succ, List.map_append, List.flatMap_append, ih (by omega)]
        simp only [List.map_cons, List.map_nil, List.flatMap_cons, List.flatMap_nil, List.append_nil]
        rw [micro_examples b (n * s) s m (hle m (by omega)), Nat.add_mul, Nat.one_mul, List.take_add]
    have := key n (le_refl _)
    rw [this, List.take_of_length_le (by simp [examples])]

/-- A batch size that is not a multiple is refused. -/
theorem C31_assert [Add K] [AddMonoid G] (split : R → R × R) (f : LossGrad K P G Mu R Row) (p : P) (mu : Option Mu)
    (b : Batch Row) (B n : Nat) (rng : R) (hb : Rect b B) (hn : 1 < n) (hd : ¬ n ∣ B) :
    accumulate split f p mu b rng (some n) = .error .assertion := by
  obtain ⟨hne, hl⟩ := hb
  cases b with
  | nil => exact absurd rfl hne
  | cons e b =>
    obtain ⟨k, rows⟩ := e
    have : rows.length = B := hl (k, rows) (List.mem_cons_self ..)
    simp only [accumulate]
    rw [if_neg (by omega), if_pos (by rw [this]; intro h; exact hd (Nat.dvd_of_mod_eq_zero h))]

section sums
variable [Field K] [AddMonoid G]

theorem accumulates_merge (keys : List (List Char × Kind)) (am wt : Nat → Example Row → K) (m1 m2 : Metrics.Dict K)
    (x1 x2 : List (Example Row)) (h1 : Accumulates keys am wt m1 x1) (h2 : Accumulates keys am wt m2 x2) :
    ∃ r, mergeDict m1 m2 = .ok r ∧ Accumulates keys am wt r (x1 ++ x2) := by
  have hk : ∀ (m : Metrics.Dict K) (xs : List (Example Row)), Accumulates keys am wt m xs → ∀ (i : Nat) (x : Metric K),
      (m.map (·.2))[i]? = some x → ∃ k, (keys.map (·.2))[i]? = some k := by
    intro m xs h i x hx
    have h3 := (List.getElem?_eq_some_iff.1 hx).1
    have h4 := congrArg List.length h.1
    simp only [List.length_map] at h3 h4
    exact ⟨_, List.getElem?_eq_getElem (by simp; omega)⟩
  obtain ⟨r, hr, kr, er⟩ := mergeDict_ok m1 m2 (by rw [h1.1, h2.1]) (by
    intro i m n hm hn
    obtain ⟨k, hk⟩ := hk m1 x1 h1 i m hm
    obtain ⟨z, hz, _⟩ := merge_kind k m n (h1.2 i m k hm hk).1 (h2.2 i n k hn hk).1
    exact ⟨z, hz⟩)
  refine ⟨r, hr, by rw [kr, h1.1], ?_⟩
  intro i x k hx hkk
  have hl1 := congrArg List.length h1.1
  have hl2 := congrArg List.length h2.1
  have hlt := (List.getElem?_eq_some_iff.1 hkk).1
  simp only [List.length_map] at hl1 hl2 hlt
  have e1 : (m1.map (·.2))[i]? = some ((m1.map (·.2))[i]'(by simp; omega)) := List.getElem?_eq_getElem _
  have e2 : (m2.map (·.2))[i]? = some ((m2.map (·.2))[i]'(by simp; omega)) := List.getElem?_eq_getElem _
  obtain ⟨w, hw, hmw⟩ := er i _ _ e1 e2
  rw [hx] at hw
  cases hw
  obtain ⟨a1, a2, a3⟩ := h1.2 i _ k e1 hkk
  obtain ⟨b1, b2, b3⟩ := h2.2 i _ k e2 hkk
  obtain ⟨z, hz, c1, c2, c3, _⟩ := merge_kind k _ _ a1 b1
  rw [hmw] at hz
  cases hz
  exact ⟨c1, by rw [c2, a2, b2]; simp, by rw [c3, a3, b3]; simp⟩

theorem microLoop_sum (split : R → R × R) (f : LossGrad K P G Mu R Row) (p : P) (b : Batch Row) (B size : Nat)
    (keys : List (List Char × Kind)) (g : Example Row → G) (am wt : Nat → Example Row → K)
    (hf : SumOverExamples f p keys g am wt) (hb : Rect b B) (n i : Nat) (rng : R) (s : Accum K G Mu) (hle : (i + n) * size ≤ B)
    (hg : s.grad = (((examples b B).take (i * size)).map g).sum) (hmu : s.mutables = none)
    (hm : i ≠ 0 → Accumulates keys am wt s.metrics ((examples b B).take (i * size))) :
    ∃ s', microLoop split f p b size n i rng s = .ok s' ∧ s'.grad = (((examples b B).take ((i + n) * size)).map g).sum ∧
      s'.mutables = none ∧ (i + n ≠ 0 → Accumulates keys am wt s'.metrics ((examples b B).take ((i + n) * size))) := by
  induction n generalizing i s with
  | zero => exact ⟨s, rfl, hg, hmu, hm⟩
  | succ n ih =>
    have h1 : i * size + size ≤ B := by
      have := Nat.mul_le_mul_right size (show i + 1 ≤ i + (n + 1) by omega)
      rw [Nat.add_mul, Nat.one_mul] at this; omega
    obtain ⟨f1, f2, f3⟩ := hf _ size (split rng).2 (micro_rect b B size i hb h1)
    have ht : (examples b B).take ((i + 1) * size) = (examples b B).take (i * size) ++ ((examples b B).drop (i * size)).take size := by
      rw [Nat.add_mul, Nat.one_mul, List.take_add]
    rw [micro_examples b B size i h1] at f2 f3
    have hstep : ∃ s1, microStep split f p b size rng i s = .ok (rng, s1) ∧
        s1.grad = (((examples b B).take ((i + 1) * size)).map g).sum ∧ s1.mutables = none ∧
        Accumulates keys am wt s1.metrics ((examples b B).take ((i + 1) * size)) := by
      simp only [microStep, getMicrobatch_ok b B size i hb.2 h1, hmu]
      by_cases hi : i = 0
      · rw [if_pos hi]
        refine ⟨_, rfl, ?_, f1, ?_⟩
        · show s.grad + _ = _
          rw [hg, f2, ht]; simp
        · rw [ht]; subst hi; simpa using f3
      · rw [if_neg hi]
        obtain ⟨r, hr, ha⟩ := accumulates_merge keys am wt _ _ _ _ (hm hi) f3
        rw [hr]
        refine ⟨_, rfl, ?_, f1, ?_⟩
        · show s.grad + _ = _
          rw [hg, f2, ht]; simp
        · rw [ht]; exact ha
    obtain ⟨s1, e1, g1, u1, a1⟩ := hstep
    have := ih (i + 1) s1 (by rw [show i + 1 + n = i + (n + 1) by omega]; exact hle) g1 u1 (fun _ => a1)
    rw [show i + 1 + n = i + (n + 1) by omega] at this
    simp only [microLoop, e1]
    exact this

theorem accumulates_summary (keys : List (List Char × Kind)) (am wt : Nat → Example Row → K) (m1 m2 : Metrics.Dict K)
    (xs : List (Example Row)) (h1 : Accumulates keys am wt m1 xs) (h2 : Accumulates keys am wt m2 xs) (d : K) (n : Nat) :
    summarizeDict d n m1 = summarizeDict d n m2 := by
  unfold summarizeDict
  have hl1 := congrArg List.length h1.1
  have hl2 := congrArg List.length h2.1
  simp only [List.length_map] at hl1 hl2
  apply List.ext_getElem (by simp; omega)
  intro i hi1 hi2
  simp only [List.length_map] at hi1 hi2
  simp only [List.getElem_map, Prod.mk.injEq]
  have hn1 : (m1.map (·.1))[i]'(by simpa using hi1) = (m2.map (·.1))[i]'(by simpa using hi2) := by
    simp only [h1.1, h2.1]
  refine ⟨by simpa using hn1, ?_⟩
  obtain ⟨a1, a2, a3⟩ := h1.2 i m1[i].2 keys[i].2 (by rw [List.getElem?_map, List.getElem?_eq_getElem hi1]; rfl) (by rw [List.getElem?_map, List.getElem?_eq_getElem (by omega)]; rfl)
  obtain ⟨b1, b2, b3⟩ := h2.2 i m2[i].2 keys[i].2 (by rw [List.getElem?_map, List.getElem?_eq_getElem hi2]; rfl) (by rw [List.getElem?_map, List.getElem?_eq_getElem (by omega)]; rfl)
  obtain ⟨r1, e1, s1⟩ := C32_summary _ (.leaf m1[i].2) (by simpa [MTree.leaves] using a1) d n
  obtain ⟨r2, e2, s2⟩ := C32_summary _ (.leaf m2[i].2) (by simpa [MTree.leaves] using b1) d n
  simp only [MTree.eval, Except.ok.injEq] at e1 e2
  rw [e1, e2, s1, s2]
  simp only [reported, MTree.leaves, List.map_cons, List.map_nil, List.sum_cons, List.sum_nil, add_zero, a2, b2, a3, b3]

/-- C31: for a loss that is a sum over the examples, accumulating over n microbatches gives the gradient of one pass
over the whole batch, and the same values are reported for all metrics. -/
theorem C31_same_result (split : R → R × R) (f : LossGrad K P G Mu R Row) (p : P) (b : Batch Row) (B n : Nat) (rng : R)
    (keys : List (List Char × Kind)) (g : Example Row → G) (am wt : Nat → Example Row → K)
    (hf : SumOverExamples f p keys g am wt) (hb : Rect b B) (hn : 1 < n) (hd : n ∣ B) :
    ∃ a1 a2, accumulate split f p none b rng none = .ok a1 ∧ accumulate split f p none b rng (some n) = .ok a2 ∧
      a2.grad = a1.grad ∧ a1.grad = ((examples b B).map g).sum ∧ a2.mutables = a1.mutables ∧
      (∀ d steps, summarizeDict d steps a2.metrics = summarizeDict d steps a1.metrics) := by
  obtain ⟨s, rfl⟩ := hd
  have hs : n * s / n = s := Nat.mul_div_cancel_left _ (by omega)
  obtain ⟨f1, f2, f3⟩ := hf b (n * s) rng hb
  obtain ⟨s', e, g1, u1, m1⟩ := microLoop_sum split f p b (n * s) s keys g am wt hf hb n 0 rng ⟨0, [], none⟩ (by simp) (by simp) rfl (by simp)
  rw [Nat.zero_add, List.take_of_length_le (by simp [examples])] at g1 m1
  refine ⟨⟨(f p b rng none).2.2, (f p b rng none).1, (f p b rng none).2.1⟩, s', ?_, ?_, ?_, f2, ?_, ?_⟩
  · cases b with
    | nil => exact absurd rfl hb.1
    | cons e b => rfl
  · obtain ⟨hne, hl⟩ := hb
    cases b with
    | nil => exact absurd rfl hne
    | cons e0 b =>
      obtain ⟨k, rows⟩ := e0
      have hlen : rows.length = n * s := hl (k, rows) (List.mem_cons_self ..)
      simp only [accumulate]
      rw [if_neg (by omega), if_neg (by rw [hlen]; simp), hlen, hs]
      exact e
  · rw [g1]; exact f2.symm
  · rw [u1]; exact f1.symm
  · intro d st
    exact accumulates_summary keys am wt _ _ _ (m1 (by omega)) f3 d st

end sums

theorem microLoop_rng [Add K] [Add G] (split : R → R × R) (f f' : LossGrad K P G Mu R Row) (p : P) (b : Batch Row) (size : Nat)
    (rng : R) (h : ∀ mb mu, f p mb (split rng).2 mu = f' p mb (split rng).2 mu) (n i : Nat) (s : Accum K G Mu) :
    microLoop split f p b size n i rng s = microLoop split f' p b size n i rng s := by
  induction n generalizing i s with
  | zero => rfl
  | succ n ih =>
    have hs : microStep split f p b size rng i s = microStep split f' p b size rng i s := by
      simp only [microStep, h]
    have hr : ∀ rng' s', microStep split f' p b size rng i s = .ok (rng', s') → rng' = rng := by
      intro rng' s' he
      simp only [microStep] at he
      split at he
      · cases he
      · split_ifs at he
        · cases he; rfl
        · split at he
          · cases he; rfl
          · cases he
    simp only [microLoop, hs]
    cases hc : microStep split f' p b size rng i s with
    | error e => rfl
    | ok r =>
      obtain ⟨rng', s'⟩ := r
      simp only
      rw [hr rng' s' hc]
      exact ih (i + 1) s'

/-- C31, a limit of the equivalence: all microbatches of a step are given the same dropout key, the second half of
the split step key; the accumulated result does not depend on what the model does with any other key. -/
theorem C31_one_dropout_key [Add K] [AddMonoid G] (split : R → R × R) (f f' : LossGrad K P G Mu R Row) (p : P)
    (mu : Option Mu) (b : Batch Row) (rng : R) (n : Nat) (hn : 1 < n)
    (h : ∀ mb mu, f p mb (split rng).2 mu = f' p mb (split rng).2 mu) :
    accumulate split f p mu b rng (some n) = accumulate split f' p mu b rng (some n) := by
  cases b with
  | nil => rfl
  | cons e b =>
    obtain ⟨k, rows⟩ := e
    simp only [accumulate]
    rw [if_neg (show ¬ n ≤ 1 by omega), if_neg (show ¬ n ≤ 1 by omega)]
    split_ifs
    · rfl
    · exact microLoop_rng split f f' p _ _ rng h n 0 _

/-- The microbatches of a batch. -/
def microbatchesOf (b : Batch Row) (size n : Nat) : List (Batch Row) :=
  (List.range n).map (fun i => b.map (fun e => (e.1, (e.2.drop (i * size)).take size)))

theorem chain_append (f : LossGrad K P G Mu R Row) (p : P) (key : R) (xs ys : List (Batch Row)) : ∀ (mu : Option Mu),
    chain f p key mu (xs ++ ys) = chain f p key mu xs ++
      chain f p key (((chain f p key mu xs).getLast?.map (fun r => r.2.1)).getD mu) ys := by
  induction xs with
  | nil => intro mu; simp [chain]
  | cons x xs ih =>
    intro mu
    simp only [List.cons_append, chain, ih]
    congr 2
    cases h : chain f p key (f p x key mu).2.1 xs with
    | nil => simp
    | cons a l => simp [List.getLast?_cons]

theorem mergeLeft_append [Add K] (xs : List (Metrics.Dict K)) (y : Metrics.Dict K) : ∀ (m : Metrics.Dict K),
    mergeLeft m (xs ++ [y]) = match mergeLeft m xs with
      | .ok r => mergeDict r y
      | .error e => .error e := by
  induction xs with
  | nil =>
    intro m
    simp only [List.nil_append, mergeLeft]
    cases mergeDict m y <;> rfl
  | cons x xs ih =>
    intro m
    simp only [List.cons_append, mergeLeft]
    cases mergeDict m x with
    | ok r => exact ih r
    | error e => rfl

theorem microLoop_chain [Add K] [AddMonoid G] (split : R → R × R) (f : LossGrad K P G Mu R Row) (p : P)
    (b : Batch Row) (B size : Nat) (hb : Rect b B) (mu : Option Mu) (rng : R) (n : Nat) :
    ∀ (i : Nat) (s s' : Accum K G Mu), (i + n) * size ≤ B →
    s.grad = ((chain f p (split rng).2 mu (microbatchesOf b size i)).map (fun r => r.2.2)).sum →
    s.mutables = ((chain f p (split rng).2 mu (microbatchesOf b size i)).getLast?.map (fun r => r.2.1)).getD mu →
    (∀ m ms, (chain f p (split rng).2 mu (microbatchesOf b size i)).map (fun r => r.1) = m :: ms →
      mergeLeft m ms = .ok s.metrics) →
    microLoop split f p b size n i rng s = .ok s' →
    s'.grad = ((chain f p (split rng).2 mu (microbatchesOf b size (i + n))).map (fun r => r.2.2)).sum ∧
    s'.mutables = ((chain f p (split rng).2 mu (microbatchesOf b size (i + n))).getLast?.map (fun r => r.2.1)).getD mu ∧
    (∀ m ms, (chain f p (split rng).2 mu (microbatchesOf b size (i + n))).map (fun r => r.1) = m :: ms →
      mergeLeft m ms = .ok s'.metrics) := by
  induction n with
  | zero =>
    intro i s s' _ h1 h2 h3 h
    cases h
    exact ⟨h1, h2, h3⟩
  | succ n ih =>
    intro i s s' hle h1 h2 h3 h
    have hi : i * size + size ≤ B := by
      have := Nat.mul_le_mul_right size (show i + 1 ≤ i + (n + 1) by omega)
      rw [Nat.add_mul, Nat.one_mul] at this; omega
    set mb := b.map (fun e => (e.1, (e.2.drop (i * size)).take size)) with hmb
    have hsucc : microbatchesOf b size (i + 1) = microbatchesOf b size i ++ [mb] := by
      simp [microbatchesOf, List.range_succ, hmb]
    have hch : chain f p (split rng).2 mu (microbatchesOf b size (i + 1)) =
        chain f p (split rng).2 mu (microbatchesOf b size i) ++ [f p mb (split rng).2 s.mutables] := by
      rw [hsucc, chain_append, ← h2]; rfl
    simp only [microLoop] at h
    cases hm : microStep split f p b size rng i s with
    | error e => rw [hm] at h; cases h
    | ok r =>
      obtain ⟨rng', s1⟩ := r
      rw [hm] at h
      simp only [microStep, getMicrobatch_ok b B size i hb.2 hi, ← hmb] at hm
      have key : rng' = rng ∧ s1.grad = s.grad + (f p mb (split rng).2 s.mutables).2.2 ∧
          s1.mutables = (f p mb (split rng).2 s.mutables).2.1 ∧
          (if i = 0 then s1.metrics = (f p mb (split rng).2 s.mutables).1
           else mergeDict s.metrics (f p mb (split rng).2 s.mutables).1 = .ok s1.metrics) := by
        by_cases h0 : i = 0
        · rw [if_pos h0] at hm ⊢
          cases hm
          exact ⟨rfl, rfl, rfl, rfl⟩
        · rw [if_neg h0] at hm ⊢
          split at hm
          · rename_i m' hm'
            cases hm
            exact ⟨rfl, rfl, rfl, hm'⟩
          · cases hm
      obtain ⟨rfl, k1, k2, k3⟩ := key
      have := ih (i + 1) s1 s' (by rw [show i + 1 + n = i + (n + 1) by omega]; exact hle)
        (by rw [hch, k1, h1]; simp) (by rw [hch, k2]; simp) (by
          intro m ms hms
          rw [hch, List.map_append, List.map_singleton] at hms
          by_cases h0 : i = 0
          · rw [if_pos h0] at k3
            subst h0
            simp [microbatchesOf, chain] at hms
            obtain ⟨rfl, rfl⟩ := hms
            rw [k3]; rfl
          · rw [if_neg h0] at k3
            cases hc : (chain f p (split rng').2 mu (microbatchesOf b size i)).map (fun r => r.1) with
            | nil =>
              exfalso
              have hlen : ∀ (l : List (Batch Row)) (mu : Option Mu), (chain f p (split rng').2 mu l).length = l.length := by
                intro l
                induction l with
                | nil => intro mu; rfl
                | cons a l ihl => intro mu; simp [chain, ihl]
              have := congrArg List.length hc
              rw [List.length_map, hlen] at this
              simp [microbatchesOf] at this
              exact h0 this
            | cons m0 ms0 =>
              rw [hc] at hms
              simp only [List.cons_append, List.cons.injEq] at hms
              obtain ⟨rfl, rfl⟩ := hms
              rw [mergeLeft_append, h3 _ _ hc]
              exact k3) h
      rw [show i + 1 + n = i + (n + 1) by omega] at this
      exact this

/-- C31: what accumulation computes for an arbitrary loss (dropout, mutables, non-additive metrics): the loss is
evaluated on the microbatches in order, each evaluation receives the mutables returned by the one before; the result is the
sum of the gradients, the last mutables, and the metrics merged from left to right. -/
theorem C31_chain [Add K] [AddMonoid G] (split : R → R × R) (f : LossGrad K P G Mu R Row) (p : P) (mu : Option Mu)
    (b : Batch Row) (B n : Nat) (rng : R) (hb : Rect b B) (hn : 1 < n) (hd : n ∣ B) (a : Accum K G Mu)
    (h : accumulate split f p mu b rng (some n) = .ok a) :
    ∃ mbs : List (Batch Row), mbs.length = n ∧
      mbs.flatMap (fun mb => examples mb (B / n)) = examples b B ∧
      a.grad = ((chain f p (split rng).2 mu mbs).map (fun r => r.2.2)).sum ∧
      (chain f p (split rng).2 mu mbs).getLast?.map (fun r => r.2.1) = some a.mutables ∧
      ∃ m ms, (chain f p (split rng).2 mu mbs).map (fun r => r.1) = m :: ms ∧ mergeLeft m ms = .ok a.metrics := by
  obtain ⟨mbs0, hl0, h0, hc0⟩ := C31_cover b B n hb hd
  have hmbs : mbs0 = microbatchesOf b (B / n) n := by
    apply List.ext_getElem (by simp [microbatchesOf, hl0])
    intro i h1 h2
    have h3 := (h0 i h1).1
    have hle : i * (B / n) + B / n ≤ B := by
      have h4 : i + 1 ≤ n := by omega
      have := Nat.mul_le_mul_right (B / n) h4
      rw [Nat.add_mul, Nat.one_mul, Nat.mul_div_cancel' hd] at this
      exact this
    rw [getMicrobatch_ok b B (B / n) i hb.2 hle] at h3
    simp only [Except.ok.injEq] at h3
    simp [microbatchesOf, ← h3]
  have hrows : microLoop split f p b (B / n) n 0 rng ⟨0, [], mu⟩ = .ok a := by
    obtain ⟨hne, hl⟩ := hb
    cases b with
    | nil => exact absurd rfl hne
    | cons e0 b =>
      obtain ⟨k, rows⟩ := e0
      have hlen : rows.length = B := hl (k, rows) (List.mem_cons_self ..)
      simp only [accumulate] at h
      rw [if_neg (by omega), if_neg (by rw [hlen, Nat.mod_eq_zero_of_dvd hd]; simp), hlen] at h
      exact h
  obtain ⟨r1, r2, r3⟩ := microLoop_chain split f p b B (B / n) hb mu rng n 0 ⟨0, [], mu⟩ a
    (by rw [Nat.zero_add, Nat.mul_div_cancel' hd]) (by simp [microbatchesOf, chain]) (by simp [microbatchesOf, chain])
    (by simp [microbatchesOf, chain]) hrows
  rw [Nat.zero_add, ← hmbs] at r1 r2 r3
  have hne : ∃ r rs, chain f p (split rng).2 mu mbs0 = r :: rs := by
    cases mbs0 with
    | nil => simp at hl0; omega
    | cons x xs => exact ⟨_, _, rfl⟩
  obtain ⟨r, rs, hr⟩ := hne
  refine ⟨mbs0, hl0, hc0, r1, ?_, ?_⟩
  · rw [r2, hr]
    simp [List.getLast?_cons]
  · exact ⟨r.1, rs.map (fun r => r.1), by rw [hr]; rfl, r3 _ _ (by rw [hr]; rfl)⟩

/-- A loss with a counter as mutable: two microbatches count to two. -/
example : accumulate (K := ℚ) (fun r => (r, r)) (fun (_ : Unit) (b : Batch ℚ) (_ : Nat) (mu : Option Nat) =>
      ([("n".toList, .avgStep 1 1)], some (mu.getD 0 + 1), ((b.head?.map (·.2)).getD []).sum))
    () none [("x".toList, [1, 2, 3, 4])] 0 (some 2) =
    .ok ⟨10, [("n".toList, .avgStep 2 2)], some 2⟩ := by decide +kernel

/-- A concrete sum over examples: the gradient is the sum of the rows of `x`, the loss metric as well. -/
def exLoss : LossGrad ℚ Unit ℚ Unit Nat ℚ := fun _ b _ _ =>
  let s := ((b.head?.map (·.2)).getD []).sum
  ([("loss".toList, .avgStep s 1)], none, s)

example : accumulate (fun r => (r, r)) exLoss () none [("x".toList, [1, 2, 3, 4])] 0 (some 2) =
    .ok ⟨10, [("loss".toList, .avgStep 10 2)], none⟩ := by decide +kernel

example : SumOverExamples exLoss () [("loss".toList, .avgStep)] (fun x => ((x.head?.map (·.2)).getD none).getD 0)
    (fun _ x => ((x.head?.map (·.2)).getD none).getD 0) (fun _ _ => 0) := by
  intro b B rng hb
  have key : (examples b B).map (fun x => ((x.head?.map (·.2)).getD none).getD (0 : ℚ)) = (b.head?.map (·.2)).getD [] := by
    obtain ⟨hne, hl⟩ := hb
    cases b with
    | nil => exact absurd rfl hne
    | cons e b =>
      have := hl e (List.mem_cons_self ..)
      apply List.ext_getElem (by simp [examples, this])
      intro i h1 h2
      simp only [List.length_map, examples, List.length_range] at h1
      simp [examples, exampleAt, List.getElem?_eq_getElem (show i < e.2.length by omega)]
  refine ⟨rfl, by rw [key]; rfl, rfl, ?_⟩
  intro i x k hx hk
  cases i with
  | zero =>
    simp only [exLoss, List.map_cons, List.map_nil, List.getElem?_cons_zero, Option.some.injEq] at hx hk
    subst hx; subst hk
    exact ⟨trivial, by rw [key]; rfl, by simp [weight]⟩
  | succ i => simp at hk

end Verif.Train
