import Verif.Spec.Chunk
import Mathlib.Algebra.BigOperators.Group.List.Basic
import Mathlib.Algebra.Order.BigOperators.Group.List
/- Property C24. -/
namespace Verif.Chunk
open Spec

theorem mem_divisors (n d : ℕ) : d ∈ divisors n ↔ 0 < d ∧ d ≤ n ∧ d ∣ n := by
  unfold divisors
  rw [List.mem_filter, List.mem_range'_1]
  constructor
  · rintro ⟨h1, h2⟩
    have h2 : n % d = 0 := by simpa using h2
    exact ⟨by omega, by omega, Nat.dvd_of_mod_eq_zero h2⟩
  · rintro ⟨h1, h2, h3⟩
    exact ⟨by omega, by simpa using Nat.mod_eq_zero_of_dvd h3⟩

theorem divisors_sorted (n : ℕ) : (divisors n).Pairwise (· < ·) := by
  unfold divisors
  exact (List.pairwise_lt_range' (s := 1) (n := n)).filter _

theorem divisors_last (n : ℕ) (h : 0 < n) : (divisors n).getLast? = some n := by
  unfold divisors
  obtain ⟨m, rfl⟩ := Nat.exists_eq_succ_of_ne_zero (by omega : n ≠ 0)
  rw [List.range'_concat, List.filter_append]
  have : (List.filter (fun i => (m + 1) % i == 0) [1 + 1 * m]) = [m + 1] := by
    rw [List.filter_cons, if_pos (by simp [Nat.add_comm]), Nat.one_mul, Nat.add_comm]; rfl
  rw [this, List.getLast?_append]; simp

theorem divisors_head (n : ℕ) (h : 0 < n) : ∃ t, divisors n = 1 :: t := by
  unfold divisors
  obtain ⟨m, rfl⟩ := Nat.exists_eq_succ_of_ne_zero (by omega : n ≠ 0)
  rw [List.range'_succ, List.filter_cons, if_pos (by simp [Nat.mod_one])]
  exact ⟨_, rfl⟩

/-- State of one dimension: a non-empty initial part of the divisors. -/
def DimOK (n : ℕ) (l : List ℕ) : Prop := l ≠ [] ∧ l <+: divisors n

theorem dim_last {n : ℕ} {l : List ℕ} (h : DimOK n l) : ∃ a, l.getLast? = some a ∧ 0 < a ∧ a ∣ n ∧ a ≤ n := by
  refine ⟨l.getLast h.1, List.getLast?_eq_getLast_of_ne_nil h.1, ?_⟩
  have := (mem_divisors n _).1 (h.2.subset (List.getLast_mem h.1))
  exact ⟨this.1, this.2.2, this.2.1⟩

/-- Dropping the last divisor when it is above 1. -/
theorem dim_drop {n a : ℕ} {l : List ℕ} (h : DimOK n l) (hn : 0 < n) (ha : l.getLast? = some a) (h1 : 1 < a) :
    DimOK n l.dropLast ∧ ∃ b, l.dropLast.getLast? = some b ∧ NextDivisor n b a := by
  obtain ⟨t, ht⟩ := divisors_head n hn
  have hpre := h.2
  have hl : l = l.dropLast ++ [a] := by
    obtain ⟨ys, hys⟩ := List.getLast?_eq_some_iff.1 ha
    rw [hys]; simp
  have hne : l.dropLast ≠ [] := by
    intro he
    rw [he] at hl
    rw [hl, ht] at hpre
    have := List.cons_prefix_cons.1 hpre
    omega
  have hok : DimOK n l.dropLast := ⟨hne, (List.dropLast_prefix l).trans hpre⟩
  refine ⟨hok, l.dropLast.getLast hne, List.getLast?_eq_getLast_of_ne_nil hne, ?_⟩
  obtain ⟨rest, hrest⟩ := hpre
  set b := l.dropLast.getLast hne
  have hb : l.dropLast = l.dropLast.dropLast ++ [b] := (List.dropLast_append_getLast hne).symm
  have hdiv : divisors n = l.dropLast.dropLast ++ ([b] ++ ([a] ++ rest)) := by
    rw [← hrest]
    conv_lhs => rw [hl, hb]
    simp
  have hs := divisors_sorted n
  rw [hdiv, List.pairwise_append] at hs
  obtain ⟨_, hs2, hs3⟩ := hs
  simp only [List.singleton_append, List.pairwise_cons] at hs2
  have ham : a ∈ divisors n := by rw [hdiv]; simp
  refine ⟨hs2.1 a (by simp), ((mem_divisors n a).1 ham).2.2, ?_⟩
  intro e he1 he2
  have hem : e ∈ divisors n := by
    rw [mem_divisors]
    exact ⟨by omega, Nat.le_of_dvd hn he2, he2⟩
  rw [hdiv] at hem
  simp only [List.mem_append, List.mem_singleton, List.singleton_append, List.mem_cons] at hem
  rcases hem with hem | hem | hem | hem
  · have := hs3 e hem b (by simp); omega
  · omega
  · omega
  · exact (hs2.2.1 e hem).le

theorem current_eq {df : List (List ℕ)} {cur : List ℕ} (h : current df = some cur) :
    cur.length = df.length ∧ ∀ i (h1 : i < cur.length) (h2 : i < df.length), (df[i]).getLast? = some cur[i] := by
  induction df generalizing cur with
  | nil =>
    have : some ([] : List ℕ) = some cur := h
    obtain rfl := Option.some.inj this
    exact ⟨rfl, by intro i h1; simp at h1⟩
  | cons l df ih =>
    unfold current at h
    rw [List.mapM_cons] at h
    cases hl : l.getLast? with
    | none => rw [hl] at h; cases h
    | some a =>
      rw [hl] at h
      cases hr : List.mapM List.getLast? df with
      | none => rw [hr] at h; cases h
      | some cur' =>
        rw [hr] at h
        have : some (a :: cur') = some cur := h
        obtain rfl := Option.some.inj this
        obtain ⟨i1, i2⟩ := ih hr
        refine ⟨by simp [i1], ?_⟩
        intro i h1 h2
        cases i with
        | zero => exact hl
        | succ i => exact i2 i (by simpa using h1) (by simpa using h2)

theorem current_some {df : List (List ℕ)} {shape : List ℕ} (h : List.Forall₂ DimOK shape df) : ∃ cur, current df = some cur := by
  unfold current
  induction h with
  | nil => exact ⟨[], rfl⟩
  | cons h _ ih =>
    obtain ⟨a, ha, _⟩ := dim_last h
    obtain ⟨cur, hcur⟩ := ih
    exact ⟨a :: cur, by rw [List.mapM_cons, ha, hcur]; rfl⟩

theorem pick_fold (cur : List ℕ) (k : ℕ) (best : Option ℕ × ℕ) :
    let r := (cur.zipIdx k).foldl (fun best p => if p.1 > best.2 then (some p.2, p.1) else best) best
    best.2 ≤ r.2 ∧ (∀ x ∈ cur, x ≤ r.2) ∧ (r = best ∨ ∃ i, ∃ h : i < cur.length, r = (some (k + i), cur[i]) ∧ best.2 < cur[i]) := by
  induction cur generalizing k best with
  | nil => exact ⟨le_rfl, by simp, Or.inl rfl⟩
  | cons x cur ih =>
    rw [List.zipIdx_cons, List.foldl_cons]
    dsimp only
    by_cases hx : x > best.2
    · rw [if_pos hx]
      obtain ⟨h1, h2, h3⟩ := ih (k + 1) (some k, x)
      dsimp only at h1 h2 h3 ⊢
      refine ⟨by omega, ?_, ?_⟩
      · intro y hy
        rcases List.mem_cons.1 hy with rfl | hy
        · exact h1
        · exact h2 y hy
      · right
        rcases h3 with h3 | ⟨i, hi, h3, h4⟩
        · exact ⟨0, by simp, by rw [h3]; simp, by simpa using hx⟩
        · exact ⟨i + 1, by simpa using hi, by rw [h3]; simp; omega, by simp; omega⟩
    · rw [if_neg hx]
      obtain ⟨h1, h2, h3⟩ := ih (k + 1) best
      refine ⟨h1, ?_, ?_⟩
      · intro y hy
        rcases List.mem_cons.1 hy with rfl | hy
        · omega
        · exact h2 y hy
      · rcases h3 with h3 | ⟨i, hi, h3, h4⟩
        · exact Or.inl h3
        · exact Or.inr ⟨i + 1, by simpa using hi, by rw [h3]; simp; omega, by simpa using h4⟩

theorem pick_spec (cur : List ℕ) : (∃ i, ∃ h : i < cur.length, (pick cur) = (some i, cur[i]) ∧ 1 < cur[i] ∧ ∀ x ∈ cur, x ≤ cur[i]) ∨
    (pick cur = (none, 1) ∧ ∀ x ∈ cur, x ≤ 1) := by
  obtain ⟨_, h2, h3⟩ := pick_fold cur 0 (none, 1)
  rcases h3 with h3 | ⟨i, hi, h3, h4⟩
  · right
    refine ⟨h3, ?_⟩
    intro x hx
    have := h2 x hx
    rw [h3] at this; exact this
  · left
    refine ⟨i, hi, by unfold pick; rw [h3, Nat.zero_add], h4, ?_⟩
    intro x hx
    have := h2 x hx
    rw [h3] at this; exact this

theorem prod_le_one (l : List ℕ) (h : ∀ x ∈ l, x ≤ 1) : l.prod ≤ 1 := by
  induction l with
  | nil => simp
  | cons a l ih =>
    rw [List.prod_cons]
    have h1 := h a (by simp)
    have h2 := ih (fun x hx => h x (by simp [hx]))
    calc a * l.prod ≤ 1 * 1 := Nat.mul_le_mul h1 h2
      _ = 1 := rfl

theorem sum_modify (df : List (List ℕ)) (i : ℕ) (h : i < df.length) (hne : df[i] ≠ []) :
    ((df.modify i List.dropLast).map List.length).sum < (df.map List.length).sum := by
  induction df generalizing i with
  | nil => simp at h
  | cons l df ih =>
    cases i with
    | zero =>
      simp only [List.modify_zero_cons, List.map_cons, List.sum_cons, List.length_dropLast]
      have : l.length ≠ 0 := by simpa using hne
      omega
    | succ i =>
      simp only [List.modify_succ_cons, List.map_cons, List.sum_cons]
      have := ih i (by simpa using h) (by simpa using hne)
      omega

/-- Either nothing was reduced, or enlarging one dimension by one divisor exceeds the target. -/
def Tight (shape : List ℕ) (target : ℕ) (r : List ℕ) : Prop :=
  r = shape ∨ ∃ i, ∃ (h : i < r.length) (h' : i < shape.length), ∃ d, NextDivisor shape[i] r[i] d ∧ target < (r.set i d).prod

theorem go_spec (shape : List ℕ) (target : ℕ) (ht : 1 ≤ target) (hpos : ∀ n ∈ shape, 0 < n) (f : ℕ) (df : List (List ℕ))
    (hok : List.Forall₂ DimOK shape df) (hf : (df.map List.length).sum < f)
    (htight : ∀ cur, current df = some cur → Tight shape target cur) :
    ∃ r, go target f df = .ok r ∧ Fits shape target r ∧ Tight shape target r := by
  induction f generalizing df with
  | zero => omega
  | succ f ih =>
    obtain ⟨cur, hcur⟩ := current_some hok
    obtain ⟨hlen, hget⟩ := current_eq hcur
    have hsl : shape.length = df.length := hok.length_eq
    have hdim : ∀ i (h1 : i < shape.length) (h2 : i < df.length), DimOK shape[i] df[i] :=
      fun i h1 h2 => (List.forall₂_iff_get.1 hok).2 i h1 h2
    rw [go, hcur]
    dsimp only
    by_cases hbig : cur.prod > target
    · rw [if_pos hbig]
      rcases pick_spec cur with ⟨i, hi, hp, h1, _⟩ | ⟨_, hall⟩
      · rw [hp]
        dsimp only
        have hid : i < df.length := by omega
        have his : i < shape.length := by omega
        have hnpos := hpos shape[i] (List.getElem_mem his)
        obtain ⟨d1, b, hb, hnext⟩ := dim_drop (hdim i his hid) hnpos (hget i hi hid) h1
        have hok' : List.Forall₂ DimOK shape (df.modify i List.dropLast) := by
          rw [List.forall₂_iff_get]
          refine ⟨by simp [hsl], ?_⟩
          intro j hj1 hj2
          simp only [List.get_eq_getElem, List.getElem_modify]
          by_cases hij : i = j
          · subst hij; rw [if_pos rfl]; exact d1
          · rw [if_neg hij]; exact hdim j hj1 (by simpa using hj2)
        apply ih _ hok'
        · have := sum_modify df i hid (hdim i his hid).1
          omega
        · intro cur' hcur'
          obtain ⟨hlen', hget'⟩ := current_eq hcur'
          rw [List.length_modify] at hlen'
          right
          have hi' : i < cur'.length := by omega
          have hbi : cur'[i] = b := by
            have := hget' i hi' (by simpa using hid)
            rw [List.getElem_modify, if_pos rfl, hb] at this
            exact (Option.some.inj this).symm
          refine ⟨i, hi', his, cur[i], by rw [hbi]; exact hnext, ?_⟩
          have : cur'.set i cur[i] = cur := by
            apply List.ext_getElem (by simp; omega)
            intro j hj1 hj2
            rw [List.getElem_set]
            by_cases hij : i = j
            · subst hij; rw [if_pos rfl]
            · rw [if_neg hij]
              have e1 := hget' j (by simpa using hj1) (by simp; omega)
              have e2 := hget j hj2 (by omega)
              rw [List.getElem_modify, if_neg hij, e2] at e1
              exact (Option.some.inj e1).symm
          rw [this]; exact hbig
      · have := prod_le_one cur hall
        omega
    · rw [if_neg hbig]
      refine ⟨cur, rfl, ⟨by omega, ?_, by omega⟩, htight cur hcur⟩
      intro i h1 h2
      obtain ⟨a, ha, h3, h4, _⟩ := dim_last (hdim i h2 (by omega))
      have := hget i h1 (by omega)
      rw [ha] at this
      rw [← Option.some.inj this]
      exact ⟨h3, h4⟩

theorem init_ok (shape : List ℕ) (hpos : ∀ n ∈ shape, 0 < n) : List.Forall₂ DimOK shape (shape.map divisors) := by
  rw [List.forall₂_map_right_iff]
  induction shape with
  | nil => exact List.Forall₂.nil
  | cons n s ih =>
    refine List.Forall₂.cons ?_ (ih (fun m hm => hpos m (by simp [hm])))
    refine ⟨?_, List.prefix_refl _⟩
    obtain ⟨t, ht⟩ := divisors_head n (hpos n (by simp))
    rw [ht]; simp

/-- C24: for every write shape with positive sizes and every target of at least 1 the function returns a shape
of the same rank whose sizes divide the sizes of the write shape and which has at most `target` elements. -/
theorem C24_returns (shape : List ℕ) (target : ℕ) (ht : 1 ≤ target) (hpos : ∀ n ∈ shape, 0 < n) :
    ∃ r, chooseChunkShape shape target = .ok r ∧ Fits shape target r := by
  unfold chooseChunkShape
  rw [if_neg (by omega)]
  obtain ⟨r, h1, h2, _⟩ := go_spec shape target ht hpos _ _ (init_ok shape hpos) (Nat.lt_succ_self _) (by
    intro cur hcur
    left
    obtain ⟨hlen, hget⟩ := current_eq hcur
    apply List.ext_getElem (by simpa using hlen)
    intro i h1 h2
    have := hget i h1 (by simpa using h2)
    rw [List.getElem_map, divisors_last _ (hpos _ (List.getElem_mem h2))] at this
    exact (Option.some.inj this).symm)
  exact ⟨r, h1, h2⟩

/-- C24: the reduction stops as soon as it can.  The result is the write shape itself, or there is a dimension
such that the next larger divisor of its size would bring the chunk above the target. -/
theorem C24_tight (shape : List ℕ) (target : ℕ) (hpos : ∀ n ∈ shape, 0 < n) (r : List ℕ)
    (h : chooseChunkShape shape target = .ok r) :
    r = shape ∨ ∃ i, ∃ (h : i < r.length) (h' : i < shape.length), ∃ d, NextDivisor shape[i] r[i] d ∧ target < (r.set i d).prod := by
  unfold chooseChunkShape at h
  split_ifs at h with ht
  obtain ⟨r', h1, _, h3⟩ := go_spec shape target (by omega) hpos _ _ (init_ok shape hpos) (Nat.lt_succ_self _) (by
    intro cur hcur
    left
    obtain ⟨hlen, hget⟩ := current_eq hcur
    apply List.ext_getElem (by simpa using hlen)
    intro i h1 h2
    have := hget i h1 (by simpa using h2)
    rw [List.getElem_map, divisors_last _ (hpos _ (List.getElem_mem h2))] at this
    exact (Option.some.inj this).symm)
  dsimp only at h
  rw [h1] at h
  cases h
  exact h3

/-- C24: an array with an empty dimension makes the function fail with an IndexError. -/
theorem C24_zero_dim (shape : List ℕ) (target : ℕ) (ht : 1 ≤ target) (h0 : 0 ∈ shape) :
    chooseChunkShape shape target = .error .index := by
  have hnone : current (shape.map divisors) = none := by
    induction shape with
    | nil => simp at h0
    | cons n s ih =>
      unfold current
      rw [List.map_cons, List.mapM_cons]
      rcases List.mem_cons.1 h0 with h | h
      · subst h; rfl
      · have := ih h
        unfold current at this
        rw [this]
        cases (divisors n).getLast? <;> rfl
  unfold chooseChunkShape
  rw [if_neg (by omega)]
  dsimp only
  rw [go, hnone]

/-- A non-trivial case. -/
example : chooseChunkShape [12, 10, 3] 50 = .ok [4, 2, 3] := by
  decide

example : (∀ n ∈ [12, 10, 3], 0 < n) ∧ NextDivisor 12 3 4 := by
  refine ⟨by decide, by decide, by decide, ?_⟩
  intro e h1 _
  omega

end Verif.Chunk
