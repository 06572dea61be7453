import Verif.Model.Align
import Mathlib.Data.Nat.Bitwise
/-
Properties C09 (prompt alignment) and C10 (prefix removal).
-/
namespace Verif.Align

namespace Spec
/-- Number of padding tokens at the end / at the start of a row. -/
def trailing (row : List Int) : Nat := (row.reverse.takeWhile (· = 0)).length
def leading (row : List Int) : Nat := (row.takeWhile (· = 0)).length
end Spec
open Spec

theorem shr_eq (b : Nat) (row : List Int) : shr b row = (List.replicate b 0 ++ row).take row.length := by
  unfold shr; congr 1; omega

theorem shr_get (b : Nat) (row : List Int) (j : Nat) (hj : j < row.length) :
    (shr b row)[j]? = if j < b then some 0 else row[j - b]? := by
  rw [shr_eq, List.getElem?_take, if_pos hj, List.getElem?_append]
  by_cases h : j < b
  · simp [h]
  · simp [h]

theorem shr_length (b : Nat) (row : List Int) : (shr b row).length = row.length := by
  rw [shr_eq]; simp

theorem shl_length (b : Nat) (row : List Int) : (shl b row).length = row.length := by
  unfold shl; simp

theorem shl_get (b : Nat) (row : List Int) (j : Nat) (hj : j < row.length) :
    (shl b row)[j]? = if j + b < row.length then row[j + b]? else some 0 := by
  unfold shl
  rw [List.getElem?_drop, List.getElem?_append, Nat.add_comm b j]
  by_cases h : j + b < row.length
  · simp [h]
  · simp only [h, if_false]
    rw [List.getElem?_replicate, if_pos (by omega)]

theorem shr_add (a b : Nat) (row : List Int) : shr a (shr b row) = shr (b + a) row := by
  apply List.ext_getElem?
  intro j
  by_cases hj : j < row.length
  · rw [shr_get _ _ _ (by rw [shr_length]; exact hj), shr_get _ _ _ hj]
    by_cases h1 : j < a
    · rw [if_pos h1, if_pos (by omega)]
    · rw [if_neg h1, shr_get _ _ _ (by omega)]
      by_cases h2 : j < b + a
      · rw [if_pos (by omega), if_pos h2]
      · rw [if_neg (by omega), if_neg h2]; congr 1; omega
  · rw [List.getElem?_eq_none (by simp only [shr_length]; omega), List.getElem?_eq_none (by simp only [shr_length]; omega)]

theorem shl_add (a b : Nat) (row : List Int) : shl a (shl b row) = shl (b + a) row := by
  apply List.ext_getElem?
  intro j
  by_cases hj : j < row.length
  · rw [shl_get _ _ _ (by rw [shl_length]; exact hj), shl_get _ _ _ hj, shl_length]
    by_cases h1 : j + a < row.length
    · rw [if_pos h1, shl_get _ _ _ h1]
      by_cases h2 : j + a + b < row.length
      · rw [if_pos h2, if_pos (by omega)]; congr 1; omega
      · rw [if_neg h2, if_neg (by omega)]
    · rw [if_neg h1, if_neg (by omega)]
  · rw [List.getElem?_eq_none (by simp only [shl_length]; omega), List.getElem?_eq_none (by simp only [shl_length]; omega)]

theorem shiftBits_eq (sh : Nat → List Int → List Int) (hadd : ∀ a b row, sh a (sh b row) = sh (b + a) row)
    (h0 : ∀ row, sh 0 row = row) (s n : Nat) (row : List Int) :
    shiftBits sh s n row = sh (s % 2 ^ (n + 1)) row := by
  unfold shiftBits
  have gen : ∀ n, (List.range n).foldl (fun row i => if s &&& 2 ^ i ≠ 0 then sh (2 ^ i) row else row) row =
      sh (s % 2 ^ n) row := by
    intro n
    induction n with
    | zero => simp [Nat.mod_one, h0]
    | succ n ih =>
      rw [List.range_succ, List.foldl_append, ih, List.foldl_cons, List.foldl_nil, Nat.mod_pow_succ, ← Nat.toNat_testBit]
      have hb : s &&& 2 ^ n = 2 ^ n * (s.testBit n).toNat := by
        rw [Nat.and_two_pow, Nat.mul_comm]
      cases hbit : s.testBit n with
      | true =>
        rw [hb, hbit]
        rw [if_pos (by simp), hadd]
        simp
      | false =>
        rw [hb, hbit, if_neg (by simp)]
        simp
  exact gen (n + 1)

theorem shr_zero (row : List Int) : shr 0 row = row := by rw [shr_eq]; simp
theorem shl_zero (row : List Int) : shl 0 row = row := by unfold shl; simp

theorem lt_two_pow_nbits (s n : Nat) (h : s < n) : s < 2 ^ (nbits n + 1) := by
  have h1 : n ≤ 2 ^ nbits n := Nat.le_pow_clog (by omega) n
  have h2 : 2 ^ nbits n ≤ 2 ^ (nbits n + 1) := Nat.pow_le_pow_right (by omega) (by omega)
  omega

/-- The index found by `argmax` is that of the last non-padding token. -/
theorem argmax_last (row : List Int) (n : Nat) (hn : n < row.length) (h1 : row[n]? ≠ some 0)
    (h2 : ∀ j, n < j → j < row.length → row[j]? = some 0) :
    argmax (row.zipIdx.map (fun p => if p.1 ≠ 0 then p.2 else 0)) = n := by
  have key : ∀ j : Nat, (row.zipIdx.map (fun p => if p.1 ≠ 0 then p.2 else 0))[j]? =
      row[j]?.map (fun x => if x ≠ 0 then j else 0) := by
    intro j
    simp [List.getElem?_zipIdx]
    rcases row[j]? with _ | v <;> simp
  set l := row.zipIdx.map (fun p => if p.1 ≠ 0 then p.2 else 0) with hl
  have hlen : l.length = row.length := by simp [hl]
  have hv : l[n]? = some n := by
    rw [key, List.getElem?_eq_getElem hn] at *
    have : row[n] ≠ 0 := fun h => h1 (by rw [h])
    simp [this]
  have hle : ∀ x ∈ l, x ≤ n := by
    intro x hx
    obtain ⟨j, hj⟩ := List.getElem?_of_mem hx
    rw [key] at hj
    rcases hr : row[j]? with _ | v
    · rw [hr] at hj; cases hj
    · rw [hr] at hj
      simp only [Option.map_some, Option.some.injEq] at hj
      have hjl := (List.getElem?_eq_some_iff.1 hr).1
      by_cases hjn : j ≤ n
      · split at hj <;> omega
      · have := h2 j (by omega) hjl
        rw [hr] at this
        cases this
        simp at hj; omega
  have hmax : l.foldr max 0 = n := by
    have hmem : ∀ (l : List Nat), (∀ x ∈ l, x ≤ n) → l.foldr max 0 ≤ n := by
      intro l
      induction l with
      | nil => intro _; exact Nat.zero_le _
      | cons a l ih =>
        intro h
        rw [List.foldr_cons]
        exact max_le (h a List.mem_cons_self) (ih (fun x hx => h x (List.mem_cons_of_mem _ hx)))
    have hge : ∀ (l : List Nat), ∀ x ∈ l, x ≤ l.foldr max 0 := by
      intro l
      induction l with
      | nil => intro x hx; cases hx
      | cons a l ih =>
        intro x hx
        rw [List.foldr_cons]
        rcases List.mem_cons.1 hx with rfl | hx
        · exact le_max_left _ _
        · exact le_trans (ih x hx) (le_max_right _ _)
    exact le_antisymm (hmem l hle) (hge l n (List.mem_of_getElem? hv))
  unfold argmax
  rw [hmax]
  apply le_antisymm
  · by_contra hc
    have h3 : n < l.idxOf n := by omega
    have := List.not_of_lt_findIdx (p := (· == n)) (xs := l) (i := n) (by simpa [List.idxOf] using h3)
    obtain ⟨h4, h5⟩ := List.getElem?_eq_some_iff.1 hv
    simp [h5] at this
  · by_contra hc
    have hlt : l.idxOf n < l.length := by omega
    have h3 : l[l.idxOf n] = n := List.getElem_idxOf hlt
    have h4 := key (l.idxOf n)
    rw [List.getElem?_eq_getElem hlt, h3] at h4
    rcases hr : row[l.idxOf n]? with _ | v
    · rw [hr] at h4; cases h4
    · rw [hr] at h4
      simp only [Option.map_some, Option.some.injEq] at h4
      split at h4 <;> omega

theorem foldr_min_le (big : Nat) : ∀ (l : List Nat), ∀ x ∈ l, l.foldr min big ≤ x := by
  intro l
  induction l with
  | nil => intro x hx; cases hx
  | cons a l ih =>
    intro x hx
    rw [List.foldr_cons]
    rcases List.mem_cons.1 hx with rfl | hx
    · exact min_le_left _ _
    · exact le_trans (min_le_right _ _) (ih x hx)

theorem le_foldr_min (big n : Nat) (hb : n ≤ big) : ∀ (l : List Nat), (∀ x ∈ l, n ≤ x) → n ≤ l.foldr min big := by
  intro l
  induction l with
  | nil => intro _; exact hb
  | cons a l ih =>
    intro h
    rw [List.foldr_cons]
    exact le_min (h a List.mem_cons_self) (ih (fun x hx => h x (List.mem_cons_of_mem _ hx)))

/-- The index found by `argmin` is that of the first non-padding token. -/
theorem argmin_first (row : List Int) (n : Nat) (hn : n < row.length) (h1 : row[n]? ≠ some 0)
    (h2 : ∀ j < n, row[j]? = some 0) :
    argmin (row.length + 1) (row.zipIdx.map (fun p => if p.1 ≠ 0 then p.2 + 1 else row.length + 1)) = n := by
  have key : ∀ j : Nat, (row.zipIdx.map (fun p => if p.1 ≠ 0 then p.2 + 1 else row.length + 1))[j]? =
      row[j]?.map (fun x => if x ≠ 0 then j + 1 else row.length + 1) := by
    intro j
    simp [List.getElem?_zipIdx]
    rcases row[j]? with _ | v <;> simp
  set l := row.zipIdx.map (fun p => if p.1 ≠ 0 then p.2 + 1 else row.length + 1) with hl
  have hlen : l.length = row.length := by simp [hl]
  have hv : l[n]? = some (n + 1) := by
    rw [key, List.getElem?_eq_getElem hn] at *
    have : row[n] ≠ 0 := fun h => h1 (by rw [h])
    simp [this]
  have hge : ∀ x ∈ l, n + 1 ≤ x := by
    intro x hx
    obtain ⟨j, hj⟩ := List.getElem?_of_mem hx
    rw [key] at hj
    rcases hr : row[j]? with _ | v
    · rw [hr] at hj; cases hj
    · rw [hr] at hj
      simp only [Option.map_some, Option.some.injEq] at hj
      by_cases hjn : j < n
      · have := h2 j hjn
        rw [hr] at this; cases this
        simp at hj; omega
      · split at hj <;> omega
  have hmin : l.foldr min (row.length + 1) = n + 1 :=
    le_antisymm (foldr_min_le _ l _ (List.mem_of_getElem? hv)) (le_foldr_min _ _ (by omega) l hge)
  unfold argmin
  rw [hmin]
  have hmem : n + 1 ∈ l := List.mem_of_getElem? hv
  have hlt : l.idxOf (n + 1) < l.length := List.idxOf_lt_length_iff.2 hmem
  have h3 : l[l.idxOf (n + 1)] = n + 1 := List.getElem_idxOf hlt
  have h4 := key (l.idxOf (n + 1))
  rw [List.getElem?_eq_getElem hlt, h3] at h4
  rcases hr : row[l.idxOf (n + 1)]? with _ | v
  · rw [hr] at h4; cases h4
  · rw [hr] at h4
    simp only [Option.map_some, Option.some.injEq] at h4
    split at h4 <;> omega

theorem takeWhile_zero (row : List Int) (n : Nat) : leading row = n → n < row.length →
    row[n]? ≠ some 0 ∧ ∀ j < n, row[j]? = some 0 := by
  rintro rfl hn
  unfold leading at *
  constructor
  · intro h
    have := List.getElem?_eq_some_iff.1 h
    induction row with
    | nil => simp at hn
    | cons a l ih =>
      by_cases ha : a = 0
      · simp only [ha, decide_true, List.takeWhile_cons_of_pos, List.length_cons, Nat.add_lt_add_iff_right,
          List.getElem?_cons_succ, List.getElem_cons_succ] at *
        exact ih hn h ⟨hn, this.2⟩
      · simp [ha] at h
  · intro j hj
    induction row generalizing j with
    | nil => simp at hj
    | cons a l ih =>
      by_cases ha : a = 0
      · cases j with
        | zero => simp [ha]
        | succ j =>
          simp only [ha, decide_true, List.takeWhile_cons_of_pos, List.length_cons, Nat.add_lt_add_iff_right,
            List.getElem?_cons_succ] at *
          exact ih hn j hj
      · simp [ha] at hj

theorem leading_all (row : List Int) (h : row.length ≤ leading row) : ∀ j < row.length, row[j]? = some 0 := by
  intro j hj
  induction row generalizing j with
  | nil => simp at hj
  | cons a l ih =>
    unfold leading at *
    by_cases ha : a = 0
    · cases j with
      | zero => simp [ha]
      | succ j =>
        simp only [ha, decide_true, List.takeWhile_cons_of_pos, List.length_cons, Nat.add_le_add_iff_right,
          List.getElem?_cons_succ, Nat.add_lt_add_iff_right] at *
        exact ih h j hj
    · simp [ha] at h

theorem leading_le (row : List Int) : leading row ≤ row.length := (List.takeWhile_sublist _).length_le

theorem leading_zero (row : List Int) (j : Nat) (hj : j < leading row) : row[j]? = some 0 := by
  have := leading_le row
  by_cases h : leading row < row.length
  · exact (takeWhile_zero row _ rfl h).2 j hj
  · exact leading_all row (by omega) j (by omega)

theorem trailing_le (row : List Int) : trailing row ≤ row.length := by
  unfold trailing
  have := (List.takeWhile_sublist (l := row.reverse) (fun x : Int => decide (x = 0))).length_le
  simpa using this

theorem trailing_spec (row : List Int) (h : trailing row < row.length) :
    row[row.length - 1 - trailing row]? ≠ some 0 ∧
      ∀ j, row.length - 1 - trailing row < j → j < row.length → row[j]? = some 0 := by
  have := takeWhile_zero row.reverse (trailing row) rfl (by simpa using h)
  obtain ⟨h1, h2⟩ := this
  constructor
  · rwa [List.getElem?_reverse h] at h1
  · intro j hj hjl
    have := h2 (row.length - 1 - j) (by omega)
    rw [List.getElem?_reverse (by omega)] at this
    rwa [show row.length - 1 - (row.length - 1 - j) = j by omega] at this

theorem trailing_all (row : List Int) (h : row.length ≤ trailing row) : row = List.replicate row.length 0 := by
  have := leading_all row.reverse (by simpa [trailing, leading] using h)
  apply List.ext_getElem?
  intro j
  by_cases hj : j < row.length
  · have h1 := this (row.length - 1 - j) (by simp; omega)
    rw [List.getElem?_reverse (by omega)] at h1
    rw [show row.length - 1 - (row.length - 1 - j) = j by omega] at h1
    rw [h1, List.getElem?_replicate, if_pos hj]
  · rw [List.getElem?_eq_none (by omega), List.getElem?_eq_none (by simp; omega)]

theorem shr_replicate (b n : Nat) : shr b (List.replicate n 0) = List.replicate n 0 := by
  rw [shr_eq]; simp

/-- C09, right alignment: every token moves right by exactly the number of trailing padding tokens. -/
theorem C09_right_align (row : List Int) :
    rightAlign row = List.replicate (trailing row) 0 ++ row.take (row.length - trailing row) := by
  by_cases h : trailing row < row.length
  · obtain ⟨h1, h2⟩ := trailing_spec row h
    unfold rightAlign
    simp only
    rw [argmax_last row _ (by omega) h1 h2, shiftBits_eq shr shr_add shr_zero]
    rw [Nat.mod_eq_of_lt (lt_two_pow_nbits _ _ (by omega))]
    have : row.length - (row.length - 1 - trailing row) - 1 = trailing row := by omega
    rw [this, shr_eq, List.take_append, List.take_of_length_le (by simp; omega)]
    simp
  · have hle := trailing_le row
    have he : trailing row = row.length := by omega
    have hz := trailing_all row (by omega)
    rw [he, Nat.sub_self, List.take_zero, List.append_nil]
    unfold rightAlign
    simp only
    rw [shiftBits_eq shr shr_add shr_zero]
    generalize row.length = n at hz
    rw [hz, shr_replicate]

/-- C09, left alignment: leading padding is moved to the end. -/
theorem C09_left_align (row : List Int) :
    leftAlign row = row.drop (leading row) ++ List.replicate (leading row) 0 := by
  by_cases h : leading row < row.length
  · obtain ⟨h1, h2⟩ := takeWhile_zero row _ rfl h
    unfold leftAlign
    simp only
    rw [argmin_first row _ h h1 h2, shiftBits_eq shl shl_add shl_zero]
    rw [Nat.mod_eq_of_lt (lt_two_pow_nbits _ _ h), shl, List.drop_append_of_le_length h.le]
  · have hle := leading_le row
    have he : leading row = row.length := by omega
    have hall := leading_all row (by omega)
    have hz : row = List.replicate row.length 0 := by
      apply List.ext_getElem?
      intro j
      by_cases hj : j < row.length
      · rw [hall j hj, List.getElem?_replicate, if_pos hj]
      · rw [List.getElem?_eq_none (by omega), List.getElem?_eq_none (by simp; omega)]
    rw [he, List.drop_length, List.nil_append, ← hz]
    unfold leftAlign
    simp only
    rw [shiftBits_eq shl shl_add shl_zero]
    generalize row.length = n at hz
    rw [hz]
    unfold shl
    rw [← List.replicate_add, List.drop_replicate]
    simp

theorem leading_replicate_append (n : Nat) (l : List Int) : leading (List.replicate n 0 ++ l) = n + leading l := by
  unfold leading
  induction n with
  | zero => simp
  | succ n ih => rw [List.replicate_succ, List.cons_append, List.takeWhile_cons_of_pos (by simp), List.length_cons, ih]; omega

/-- C09, round trip: aligning a row to the right and back to the left returns the row with its
leading padding (such as the BOS position) moved to the end; in particular a row that
starts with a token is returned unchanged. -/
theorem C09_round_trip (row : List Int) :
    leftAlign (rightAlign row) = row.drop (leading row) ++ List.replicate (leading row) 0 ∧
    (leading row = 0 → leftAlign (rightAlign row) = row) := by
  have key : leftAlign (rightAlign row) = row.drop (leading row) ++ List.replicate (leading row) 0 := by
    rw [C09_left_align, C09_right_align, leading_replicate_append]
    by_cases h : trailing row < row.length
    · obtain ⟨h1, h2⟩ := trailing_spec row h
      have hlead : leading (row.take (row.length - trailing row)) = leading row ∧
          leading row < row.length - trailing row := by
        have hl : leading row ≤ row.length - 1 - trailing row := by
          by_contra hc
          have hall : ∀ j < leading row, row[j]? = some 0 := by
            by_cases h' : leading row < row.length
            · exact (takeWhile_zero row _ rfl h').2
            · have := leading_le row
              intro j hj
              exact leading_all row (by omega) j (by omega)
          exact h1 (hall _ (by omega))
        refine ⟨?_, by omega⟩
        have h3 := takeWhile_zero row _ rfl (by omega)
        have h4 : leading (row.take (row.length - trailing row)) ≤ leading row := by
          by_contra hc
          have hz := leading_zero (row.take (row.length - trailing row)) (leading row) (by omega)
          rw [List.getElem?_take, if_pos (by omega)] at hz
          exact h3.1 hz
        by_contra hne
        have hlt : leading (row.take (row.length - trailing row)) < leading row := by omega
        have h5 := takeWhile_zero (row.take (row.length - trailing row)) _ rfl (by simp; omega)
        apply h5.1
        rw [List.getElem?_take, if_pos (by omega)]
        exact h3.2 _ hlt
      rw [hlead.1, List.drop_append, List.length_replicate]
      rw [List.drop_of_length_le (by simp), List.nil_append]
      rw [Nat.add_sub_cancel_left, List.replicate_add]
      -- the dropped tail of the row is padding
      have htail : row.drop (row.length - trailing row) = List.replicate (trailing row) 0 := by
        apply List.ext_getElem?
        intro j
        rw [List.getElem?_drop]
        by_cases hj : j < trailing row
        · rw [h2 _ (by omega) (by omega), List.getElem?_replicate, if_pos hj]
        · rw [List.getElem?_eq_none (by omega), List.getElem?_eq_none (by simp; omega)]
      have : row.drop (leading row) = (row.take (row.length - trailing row)).drop (leading row) ++
          List.replicate (trailing row) 0 := by
        rw [← htail, ← List.drop_append_of_le_length (by simp; omega), List.take_append_drop]
      rw [this, List.append_assoc]
    · have hle := trailing_le row
      have he : trailing row = row.length := by omega
      have hz := trailing_all row (by omega)
      rw [he, Nat.sub_self, List.take_zero]
      have hl : leading row = row.length := by
        have := leading_replicate_append row.length []
        rw [List.append_nil, ← hz] at this
        simpa [leading] using this
      simp [leading, List.drop_replicate]
      have hl' : (row.takeWhile (fun x => decide (x = 0))).length = row.length := hl
      rw [hl', List.drop_length, List.nil_append]
  refine ⟨key, fun h => ?_⟩
  rw [key, h]; simp

/-- C10: `remove_prefix` deletes the first `n` tokens, keeps the others in order and fills the
tail with padding. -/
theorem C10_remove_prefix (row : List Int) (n : Nat) (hn : n ≤ row.length) :
    removePrefix row n = row.drop n ++ List.replicate n 0 := by
  unfold removePrefix
  simp only
  have key : ∀ j : Nat, (row.zipIdx.map (fun p => p.1 * (if p.2 < n then 0 else 1)))[j]? =
      row[j]?.map (fun x => if j < n then 0 else x) := by
    intro j
    simp [List.getElem?_zipIdx]
    rcases row[j]? with _ | v <;> simp
  apply List.ext_getElem?
  intro j
  rw [List.getElem?_map]
  by_cases hj : j < row.length
  · rw [List.getElem?_range hj, Option.map_some, List.getD, key]
    have hpos : 0 < row.length := by omega
    by_cases h : j + n < row.length
    · rw [Nat.mod_eq_of_lt h, List.getElem?_append_left (by simp; omega), List.getElem?_drop,
        Nat.add_comm n j, List.getElem?_eq_getElem h]
      simp
    · have : (j + n) % row.length = j + n - row.length := by
        rw [Nat.mod_eq_sub_mod (by omega), Nat.mod_eq_of_lt (by omega)]
      rw [this, List.getElem?_eq_getElem (show j + n - row.length < row.length by omega)]
      rw [List.getElem?_append_right (by simp; omega), List.getElem?_replicate, if_pos (by simp; omega)]
      simp only [Option.map_some, Option.getD_some, Option.some.injEq]
      rw [if_pos (by omega)]
  · rw [List.getElem?_eq_none (by simp; omega), List.getElem?_eq_none (by simp; omega)]; rfl

example : rightAlign [0, 5, 6, 0, 0] = [0, 0, 0, 5, 6] := by decide
example : leftAlign (rightAlign [4, 0, 5, 6, 0, 0, 0]) = [4, 0, 5, 6, 0, 0, 0] := by decide
example : leftAlign (rightAlign [0, 5, 6, 0, 0]) = [5, 6, 0, 0, 0] := by decide
example : leading [4, 0, 5, 6, 0, 0, 0] = 0 := by decide
example : removePrefix [1, 2, 3, 4, 5, 6, 7, 0] 2 = [3, 4, 5, 6, 7, 0, 0, 0] := by decide

end Verif.Align
