import Verif.Model.ArrayOps
import Verif.Lemmas.NDArray
import Verif.Spec.ArrayT5
import Mathlib.Algebra.BigOperators.Fin
/-
Lemmas about the array operations, for the ranks in use.
-/
namespace Verif.Arr
open Verif.ND Verif.ArrT5.Spec

@[simp] theorem bdim_self (n : Nat) : bdim n n = some n := by simp [bdim]
@[simp] theorem bdim_one_left (n : Nat) : bdim 1 n = some n := by unfold bdim; split_ifs <;> simp_all
@[simp] theorem bdim_one_right (n : Nat) : bdim n 1 = some n := by unfold bdim; split_ifs <;> simp_all

theorem sel {n k : Nat} (h : k < n) : (if n = 1 then 0 else k) = k := by split_ifs <;> omega
@[simp] theorem selF {n : Nat} (k : Fin n) : (if n = 1 then 0 else k.val) = k.val := sel k.2

section Zip
variable {α β γ : Type} (f : α → β → γ) {a : NDArray α} {b : NDArray β} {m n k q V : Nat}

theorem zip_3_3 {x : Fin m → Fin n → Fin k → α} {y : Fin m → Fin n → Fin k → β} (ha : Holds3 a x) (hb : Holds3 b y) :
    ∃ r, zipA f a b = some r ∧ Holds3 r fun i j l => f (x i j l) (y i j l) := by
  refine ⟨_, by simp [zipA, ha.1, hb.1, bshape, padTo, bdims]; rfl, rfl, fun i j l => ?_⟩
  simp [bindex, ha.2, hb.2]

theorem zip_3_1 {x : Fin m → Fin n → Fin k → α} {y : Fin k → β} (ha : Holds3 a x) (hb : Holds1 b y) :
    ∃ r, zipA f a b = some r ∧ Holds3 r fun i j l => f (x i j l) (y l) := by
  refine ⟨_, by simp [zipA, ha.1, hb.1, bshape, padTo, bdims]; rfl, rfl, fun i j l => ?_⟩
  simp [bindex, ha.2, hb.2]

theorem zip_3_keep {x : Fin m → Fin n → Fin k → α} {y : Fin m → Fin n → Fin 1 → β} (ha : Holds3 a x) (hb : Holds3 b y) :
    ∃ r, zipA f a b = some r ∧ Holds3 r fun i j l => f (x i j l) (y i j 0) := by
  refine ⟨_, by simp [zipA, ha.1, hb.1, bshape, padTo, bdims]; rfl, rfl, fun i j l => ?_⟩
  have := hb.2 i j 0
  simp at this
  simp [bindex, ha.2, this]

theorem zip_31_1 {x : Fin m → Fin n → Fin 1 → α} {y : Fin V → β} (ha : Holds3 a x) (hb : Holds1 b y) :
    ∃ r, zipA f a b = some r ∧ Holds3 r fun i j l => f (x i j 0) (y l) := by
  refine ⟨_, by simp [zipA, ha.1, hb.1, bshape, padTo, bdims]; rfl, rfl, fun i j l => ?_⟩
  have := ha.2 i j 0
  simp at this
  simp [bindex, this, hb.2]

theorem zip_outer {x : Fin m → Fin n → Fin 1 → α} {y : Fin m → Fin 1 → Fin k → β} (ha : Holds3 a x) (hb : Holds3 b y) :
    ∃ r, zipA f a b = some r ∧ Holds3 r fun i j l => f (x i j 0) (y i 0 l) := by
  refine ⟨_, by simp [zipA, ha.1, hb.1, bshape, padTo, bdims]; rfl, rfl, fun i j l => ?_⟩
  have h1 := ha.2 i j 0
  have h2 := hb.2 i 0 l
  simp at h1 h2
  simp [bindex, h1, h2]

theorem zip_4_4 {x : Fin m → Fin n → Fin k → Fin q → α} {y : Fin m → Fin n → Fin k → Fin q → β} (ha : Holds4 a x) (hb : Holds4 b y) :
    ∃ r, zipA f a b = some r ∧ Holds4 r fun i j l t => f (x i j l t) (y i j l t) := by
  refine ⟨_, by simp [zipA, ha.1, hb.1, bshape, padTo, bdims]; rfl, rfl, fun i j l t => ?_⟩
  simp [bindex, ha.2, hb.2]

theorem zip_mask_bias {x : Fin m → Fin 1 → Fin k → Fin q → α} {y : Fin 1 → Fin n → Fin k → Fin q → β} (ha : Holds4 a x) (hb : Holds4 b y) :
    ∃ r, zipA f a b = some r ∧ Holds4 r fun i j l t => f (x i 0 l t) (y 0 j l t) := by
  refine ⟨_, by simp [zipA, ha.1, hb.1, bshape, padTo, bdims]; rfl, rfl, fun i j l t => ?_⟩
  have h1 := ha.2 i 0 l t
  have h2 := hb.2 0 j l t
  simp at h1 h2
  simp [bindex, h1, h2]

theorem zip_4_mask {x : Fin m → Fin n → Fin k → Fin q → α} {y : Fin m → Fin 1 → Fin k → Fin q → β} (ha : Holds4 a x) (hb : Holds4 b y) :
    ∃ r, zipA f a b = some r ∧ Holds4 r fun i j l t => f (x i j l t) (y i 0 l t) := by
  refine ⟨_, by simp [zipA, ha.1, hb.1, bshape, padTo, bdims]; rfl, rfl, fun i j l t => ?_⟩
  have h2 := hb.2 i 0 l t
  simp at h2
  simp [bindex, ha.2, h2]

theorem zip_4_bias {x : Fin m → Fin n → Fin k → Fin q → α} {y : Fin 1 → Fin n → Fin k → Fin q → β} (ha : Holds4 a x) (hb : Holds4 b y) :
    ∃ r, zipA f a b = some r ∧ Holds4 r fun i j l t => f (x i j l t) (y 0 j l t) := by
  refine ⟨_, by simp [zipA, ha.1, hb.1, bshape, padTo, bdims]; rfl, rfl, fun i j l t => ?_⟩
  have h2 := hb.2 0 j l t
  simp at h2
  simp [bindex, ha.2, h2]

theorem zip_41_1 {x : Fin m → Fin n → Fin k → Fin 1 → α} {y : Fin V → β} (ha : Holds4 a x) (hb : Holds1 b y) :
    ∃ r, zipA f a b = some r ∧ Holds4 r fun i j l t => f (x i j l 0) (y t) := by
  refine ⟨_, by simp [zipA, ha.1, hb.1, bshape, padTo, bdims]; rfl, rfl, fun i j l t => ?_⟩
  have h1 := ha.2 i j l 0
  simp at h1
  simp [bindex, h1, hb.2]

theorem zip_grid {x : Fin 1 → Fin k → α} {y : Fin q → Fin 1 → β} (ha : Holds2 a x) (hb : Holds2 b y) :
    ∃ r, zipA f a b = some r ∧ Holds2 r fun i j => f (x 0 j) (y i 0) := by
  refine ⟨_, by simp [zipA, ha.1, hb.1, bshape, padTo, bdims]; rfl, rfl, fun i j => ?_⟩
  have h1 := ha.2 0 j
  have h2 := hb.2 i 0
  simp at h1 h2
  simp [bindex, h1, h2]

theorem zip_buckets {x : Fin 1 → Fin q → Fin k → α} {y : Fin V → Fin 1 → Fin 1 → β} (ha : Holds3 a x) (hb : Holds3 b y) :
    ∃ r, zipA f a b = some r ∧ Holds3 r fun v i j => f (x 0 i j) (y v 0 0) := by
  refine ⟨_, by simp [zipA, ha.1, hb.1, bshape, padTo, bdims]; rfl, rfl, fun v i j => ?_⟩
  have h1 := ha.2 0 i j
  have h2 := hb.2 v 0 0
  simp at h1 h2
  simp [bindex, h1, h2]
end Zip

section Shape
variable {α : Type} {a : NDArray α} {m n k q : Nat}

theorem map_1 {β : Type} (f : α → β) {x : Fin n → α} (ha : Holds1 a x) : Holds1 (mapA f a) fun i => f (x i) :=
  ⟨ha.1, fun i => by simp [mapA, ha.2]⟩
theorem map_2 {β : Type} (f : α → β) {x : Fin m → Fin n → α} (ha : Holds2 a x) : Holds2 (mapA f a) fun i j => f (x i j) :=
  ⟨ha.1, fun i j => by simp [mapA, ha.2]⟩
theorem map_3 {β : Type} (f : α → β) {x : Fin m → Fin n → Fin k → α} (ha : Holds3 a x) : Holds3 (mapA f a) fun i j l => f (x i j l) :=
  ⟨ha.1, fun i j l => by simp [mapA, ha.2]⟩
theorem map_4 {β : Type} (f : α → β) {x : Fin m → Fin n → Fin k → Fin q → α} (ha : Holds4 a x) :
    Holds4 (mapA f a) fun i j l t => f (x i j l t) := ⟨ha.1, fun i j l t => by simp [mapA, ha.2]⟩

theorem expand_1_0 {x : Fin n → α} (ha : Holds1 a x) : ∃ r, expandDims a 0 = some r ∧ Holds2 r fun (_ : Fin 1) i => x i :=
  ⟨_, by simp [expandDims, normAxis, ha.1]; rfl, rfl, fun i j => by simp [ha.2]⟩
theorem expand_1_1 {x : Fin n → α} (ha : Holds1 a x) : ∃ r, expandDims a 1 = some r ∧ Holds2 r fun i (_ : Fin 1) => x i :=
  ⟨_, by simp [expandDims, normAxis, ha.1]; rfl, by simp [List.insertIdx], fun i j => by simp [ha.2]⟩
theorem expand_2_0 {x : Fin m → Fin n → α} (ha : Holds2 a x) : ∃ r, expandDims a 0 = some r ∧ Holds3 r fun (_ : Fin 1) i j => x i j :=
  ⟨_, by simp [expandDims, normAxis, ha.1]; rfl, rfl, fun i j l => by simp [ha.2]⟩
theorem expand_2_m1 {x : Fin m → Fin n → α} (ha : Holds2 a x) : ∃ r, expandDims a (-1) = some r ∧ Holds3 r fun i j (_ : Fin 1) => x i j :=
  ⟨_, by simp [expandDims, normAxis, ha.1]; rfl, by simp [List.insertIdx], fun i j l => by simp [ha.2]⟩
theorem expand_2_m2 {x : Fin m → Fin n → α} (ha : Holds2 a x) : ∃ r, expandDims a (-2) = some r ∧ Holds3 r fun i (_ : Fin 1) j => x i j :=
  ⟨_, by simp [expandDims, normAxis, ha.1]; rfl, by simp [List.insertIdx], fun i j l => by simp [ha.2]⟩
theorem expand_3_m3 {x : Fin m → Fin n → Fin k → α} (ha : Holds3 a x) :
    ∃ r, expandDims a (-3) = some r ∧ Holds4 r fun i (_ : Fin 1) j l => x i j l :=
  ⟨_, by simp [expandDims, normAxis, ha.1]; rfl, by simp [List.insertIdx], fun i j l t => by simp [ha.2]⟩
theorem expand_3_0 {x : Fin m → Fin n → Fin k → α} (ha : Holds3 a x) :
    ∃ r, expandDims a 0 = some r ∧ Holds4 r fun (_ : Fin 1) i j l => x i j l :=
  ⟨_, by simp [expandDims, normAxis, ha.1]; rfl, rfl, fun i j l t => by simp [ha.2]⟩

theorem squeeze_4 {x : Fin 1 → Fin m → Fin n → Fin k → α} (ha : Holds4 a x) : ∃ r, squeezeFirst a = some r ∧ Holds3 r (x 0) :=
  ⟨⟨[m, n, k], fun i => a.get (0 :: i)⟩, by simp [squeezeFirst, ha.1], rfl, fun i j l => by simpa using ha.2 0 i j l⟩

theorem move_back {x : Fin m → Fin n → Fin k → Fin q → α} (ha : Holds4 a x) :
    ∃ r, moveAxis a (-3) (-1) = some r ∧ Holds4 r fun i j l t => x i t j l := by
  have e : ((List.range 4).erase 1).insertIdx 3 1 = [0, 2, 3, 1] := by decide
  refine ⟨⟨[m, k, q, n], fun i => a.get [i.getD 0 0, i.getD 3 0, i.getD 1 0, i.getD 2 0]⟩, ?_, rfl, fun i j l t => ?_⟩
  · simp [moveAxis, normAxis, ha.1, e, transpose, List.range_succ, List.idxOf_cons]; decide
  · simpa using ha.2 i t j l

theorem move_front {x : Fin m → Fin n → Fin k → Fin q → α} (ha : Holds4 a x) :
    ∃ r, moveAxis a (-1) (-3) = some r ∧ Holds4 r fun i j l t => x i l t j := by
  have e : ((List.range 4).erase 3).insertIdx 1 3 = [0, 3, 1, 2] := by decide
  refine ⟨⟨[m, q, n, k], fun i => a.get [i.getD 0 0, i.getD 2 0, i.getD 3 0, i.getD 1 0]⟩, ?_, rfl, fun i j l t => ?_⟩
  · simp [moveAxis, normAxis, ha.1, e, transpose, List.range_succ, List.idxOf_cons]; decide
  · simpa using ha.2 i l t j

theorem transpose_2 {x : Fin m → Fin n → α} (ha : Holds2 a x) : ∃ r, transpose a [1, 0] = some r ∧ Holds2 r fun j i => x i j := by
  refine ⟨⟨[n, m], fun i => a.get [i.getD 1 0, i.getD 0 0]⟩, ?_, rfl, fun i j => by simpa using ha.2 j i⟩
  simp [ha.1, transpose, List.range_succ, List.idxOf_cons]; decide

theorem arange_1 (n : Nat) : Holds1 (arange n) fun i : Fin n => (i.val : Int) := ⟨rfl, fun i => by simp [arange]⟩
theorem oneHot_1 (cur n : Nat) : Holds1 (oneHotA cur n) fun i : Fin n => if i.val = cur then 1 else 0 :=
  ⟨rfl, fun i => by simp [oneHotA]⟩

theorem broadcast_rows {x : Fin n → α} (ha : Holds1 a x) (m : Nat) :
    ∃ r, broadcastTo a [m, n] = some r ∧ Holds2 r fun (_ : Fin m) i => x i :=
  ⟨⟨[m, n], fun i => a.get (bindex a.shape i)⟩, by simp [broadcastTo, ha.1, bshape, padTo, bdims], rfl,
    fun i j => by simp [bindex, ha.1, ha.2]⟩
theorem broadcast_mask {x : Fin n → α} (ha : Holds1 a x) (m : Nat) :
    ∃ r, broadcastTo a [m, 1, 1, n] = some r ∧ Holds4 r fun (_ : Fin m) (_ _ : Fin 1) i => x i :=
  ⟨⟨[m, 1, 1, n], fun i => a.get (bindex a.shape i)⟩, by simp [broadcastTo, ha.1, bshape, padTo, bdims], rfl,
    fun i j l t => by simp [bindex, ha.1, ha.2]⟩

theorem slice_3 {x : Fin m → Fin n → Fin k → α} (ha : Holds3 a x) (c : Nat) (hn : 0 < n) :
    ∃ r, vectorSlice a [c] = some r ∧ Holds4 r fun (_ : Fin 1) i (_ : Fin 1) j => x i ⟨min c (n - 1), by omega⟩ j := by
  have h1 : 1 ≤ n := hn
  refine ⟨_, by simp [vectorSlice, ha.1, h1]; rfl, by simp, fun i j l t => ?_⟩
  have := ha.2 j ⟨min c (n - 1), by omega⟩ t
  simp at this
  simp [this]
end Shape


/-! ### Contractions -/

theorem sumBox_flat (s : List Nat) : ∀ g : List Nat → ℝ, sumBox s g = ∑ j ∈ Finset.range s.prod, g (unravel s j) := by
  induction s with
  | nil => intro g; simp [sumBox, unravel]
  | cons n s ih =>
    intro g
    simp only [sumBox, ih, List.prod_cons]
    induction n with
    | zero => simp
    | succ n ihn =>
      rw [Finset.sum_range_succ, ihn, Nat.succ_mul, Finset.sum_range_add]
      congr 1
      refine Finset.sum_congr rfl fun j hj => ?_
      have hj := Finset.mem_range.1 hj
      simp only [unravel]
      rw [Nat.add_comm, Nat.add_mul_div_right _ _ (by omega), Nat.div_eq_of_lt hj, Nat.add_mul_mod_self_right, Nat.mod_eq_of_lt hj, Nat.zero_add]

theorem sizes_range (s : List Nat) : sizes s (List.range s.length) = s := by
  refine List.ext_getElem (by simp [sizes]) fun i h1 h2 => ?_
  simp [sizes, h2]

theorem sizes_range_append (s t : List Nat) : sizes (s ++ t) (List.range s.length) = s := by
  refine List.ext_getElem (by simp [sizes]) fun i h1 h2 => ?_
  simp [sizes, List.getElem?_append, h2]

theorem sizes_range'_append (s t : List Nat) : sizes (s ++ t) (List.range' s.length t.length) = t := by
  refine List.ext_getElem (by simp [sizes]) fun i h1 h2 => ?_
  simp [sizes, List.getElem?_append, h2]

theorem range_split (p k : Nat) : List.range (p + k) = List.range p ++ List.range' p k := by
  rw [List.range_eq_range', List.range_eq_range', ← List.range'_append]; simp

theorem free_last (p k : Nat) : freeAxes (p + k) (List.range' p k) = List.range p := by
  unfold freeAxes
  rw [range_split, List.filter_append, List.filter_eq_self.2, List.filter_eq_nil_iff.2, List.append_nil]
  · intro a ha; simpa using ha
  · intro a ha; simp at ha; simp; omega

theorem free_first (p k : Nat) : freeAxes (p + k) (List.range p) = List.range' p k := by
  unfold freeAxes
  rw [range_split, List.filter_append, List.filter_eq_nil_iff.2, List.filter_eq_self.2, List.nil_append]
  · intro a ha; simp at ha; simp; omega
  · intro a ha; simpa using ha

theorem idxOf_range' (p k i : Nat) (h : i < k) : (List.range' p k).idxOf (p + i) = i := by
  have hlen : i < (List.range' p k).length := by simpa using h
  have := (List.nodup_range' (s := p) (n := k) (step := 1) (by omega)).idxOf_getElem i hlen
  simpa using this

theorem idxOf_range (k i : Nat) (h : i < k) : (List.range k).idxOf i = i := by
  rw [List.range_eq_range']; simpa using idxOf_range' 0 k i h

theorem place_last (l c : List Nat) : place (l.length + c.length) (List.range' l.length c.length) l c = l ++ c := by
  refine List.ext_getElem (by simp [place]) fun i h1 h2 => ?_
  simp only [List.length_append] at h2
  simp only [place, List.getElem_map, List.getElem_range, free_last]
  by_cases hi : i < l.length
  · rw [if_neg (by simp; omega), idxOf_range _ _ hi, List.getElem_append_left hi]; simp [hi]
  · obtain ⟨j, rfl⟩ : ∃ j, i = l.length + j := ⟨i - l.length, by omega⟩
    rw [if_pos (by simp; omega), idxOf_range' _ _ _ (by omega), List.getElem_append_right (by omega)]
    simp [show j < c.length by omega]

theorem place_first (c l : List Nat) : place (c.length + l.length) (List.range c.length) l c = c ++ l := by
  refine List.ext_getElem (by simp [place]) fun i h1 h2 => ?_
  simp only [List.length_append] at h2
  simp only [place, List.getElem_map, List.getElem_range, free_first]
  by_cases hi : i < c.length
  · rw [if_pos (by simpa using hi), idxOf_range _ _ hi, List.getElem_append_left hi]; simp [hi]
  · obtain ⟨j, rfl⟩ : ∃ j, i = c.length + j := ⟨i - c.length, by omega⟩
    rw [if_neg (by simp), idxOf_range' _ _ _ (by omega), List.getElem_append_right (by omega)]
    simp [show j < l.length by omega]

/-- Contraction of the last axes of `a` with the first axes of `b`. -/
theorem dot_flat (a b : NDArray ℝ) (lead con feat : List Nat) (ha : a.shape = lead ++ con) (hb : b.shape = con ++ feat) :
    ∃ r, dotGeneral a b (List.range' lead.length con.length) (List.range con.length) = some r ∧ r.shape = lead ++ feat ∧
      ∀ l f, l.length = lead.length → f.length = feat.length →
        r.get (l ++ f) = ∑ j ∈ Finset.range con.prod, a.get (l ++ unravel con j) * b.get (unravel con j ++ f) := by
  have e1 : a.shape.length = lead.length + con.length := by simp [ha]
  have e2 : b.shape.length = con.length + feat.length := by simp [hb]
  unfold dotGeneral
  rw [if_pos ⟨⟨List.nodup_range', by simp [e1]⟩, ⟨List.nodup_range, by simp [e2]; omega⟩, by
    rw [ha, hb, sizes_range'_append, sizes_range_append]⟩]
  refine ⟨_, rfl, ?_, ?_⟩
  · simp only [ha, hb, List.length_append, free_last, free_first, sizes_range'_append, sizes_range_append]
  · intro l f hl hf
    simp only [ha, hb, List.length_append, free_last, sizes_range'_append, List.length_range, sumBox_flat]
    refine Finset.sum_congr rfl fun j _ => ?_
    rw [← hl, List.take_left, List.drop_left]
    have h1 := place_last l (unravel con j)
    have h2 := place_first (unravel con j) f
    rw [unravel_length] at h1 h2
    rw [h1, ← hf, h2]

end Verif.Arr
