import Verif.Model.BatchSearch
import Verif.Lemmas.NDArray
import Verif.Props.BinarySearch
/-
C130: the searches and masks of `binary_search.py` on arrays of any rank treat every row by itself.
-/
namespace Verif.BatchSearch
open Verif.ND Verif.Arr Verif.BinarySearch Verif.BinarySearch.Spec

namespace Spec

/-- The row of an array, along its last axis of size `n`, at an index of the other axes. -/
def row {α : Type} (x : NDArray α) (n : Nat) (i : List Nat) : List α := (List.range n).map fun j => x.get (i ++ [j])

/-- A predicate on arrays of a shape that asks, for each element by itself, a question about this element. -/
def Pointwise (b : List Nat) (P : NDArray Word → Option (NDArray Bool)) (p : List Nat → Word → Bool) : Prop :=
  ∀ t, t.shape = b → ∃ s, P t = some s ∧ s.shape = b ∧ ∀ i, InBox b i → s.get i = p i (t.get i)

end Spec
open Spec

variable {α β γ : Type}

/-! ### Operations on arrays -/

theorem padTo_self (s : List Nat) : padTo s.length s = s := by simp [padTo]

theorem bdims_self (s : List Nat) : bdims s s = some s := by
  induction s with
  | nil => rfl
  | cons n s ih => simp [bdims, bdim, ih]

theorem bshape_self (s : List Nat) : bshape s s = some s := by simp [bshape, padTo_self, bdims_self]

theorem bindex_self {s i : List Nat} (h : InBox s i) : bindex s i = i := by
  unfold bindex
  rw [h.length, Nat.sub_self, List.drop_zero]
  unfold InBox at h
  induction h with
  | nil => rfl
  | @cons k n i s hk _ ih =>
    rw [List.zipWith_cons_cons, ih]
    split_ifs with h1
    · congr 1; omega
    · rfl

theorem zip_same (f : α → β → γ) (a : NDArray α) (b : NDArray β) (s : List Nat) (ha : a.shape = s) (hb : b.shape = s) :
    ∃ r, zipA f a b = some r ∧ r.shape = s ∧ ∀ i, InBox s i → r.get i = f (a.get i) (b.get i) := by
  refine ⟨⟨s, fun i => f (a.get (bindex s i)) (b.get (bindex s i))⟩, ?_, rfl, fun i hi => ?_⟩
  · simp [zipA, ha, hb, bshape_self]
  · dsimp only
    rw [bindex_self hi]

theorem bdims_one (s1 s2 : List Nat) (n : Nat) : bdims (s1 ++ n :: s2) (s1 ++ 1 :: s2) = some (s1 ++ n :: s2) := by
  induction s1 with
  | nil =>
    simp only [List.nil_append, bdims, bdim, bdims_self]
    by_cases h : n = 1 <;> simp [h]
  | cons m s ih => simp [bdims, bdim, ih]

theorem bindex_one {s1 s2 i1 i2 : List Nat} (h1 : InBox s1 i1) (h2 : InBox s2 i2) (j : Nat) :
    bindex (s1 ++ 1 :: s2) (i1 ++ j :: i2) = i1 ++ 0 :: i2 := by
  have hb : ∀ {s i}, InBox s i → List.zipWith (fun n k => if n = 1 then 0 else k) s i = i := by
    intro s i h
    have := bindex_self h
    unfold bindex at this
    rwa [h.length, Nat.sub_self, List.drop_zero] at this
  unfold bindex
  have hl : (i1 ++ j :: i2).length - (s1 ++ 1 :: s2).length = 0 := by simp [h1.length, h2.length]
  rw [hl, List.drop_zero, List.zipWith_append h1.length.symm, hb h1, List.zipWith_cons_cons, hb h2]
  rfl

theorem zip_one (f : α → β → γ) (a : NDArray α) (b : NDArray β) (s1 s2 : List Nat) (n : Nat) (ha : a.shape = s1 ++ n :: s2)
    (hb : b.shape = s1 ++ 1 :: s2) : ∃ r, zipA f a b = some r ∧ r.shape = s1 ++ n :: s2 ∧
      ∀ i1 j i2, InBox s1 i1 → j < n → InBox s2 i2 → r.get (i1 ++ j :: i2) = f (a.get (i1 ++ j :: i2)) (b.get (i1 ++ 0 :: i2)) := by
  have hs : bshape a.shape b.shape = some (s1 ++ n :: s2) := by
    have e : (s1 ++ n :: s2).length = (s1 ++ 1 :: s2).length := by simp
    rw [ha, hb, bshape, e, Nat.max_self, padTo_self, ← e, padTo_self, bdims_one]
  refine ⟨⟨s1 ++ n :: s2, fun i => f (a.get (bindex a.shape i)) (b.get (bindex b.shape i))⟩, by simp [zipA, hs], rfl, ?_⟩
  intro i1 j i2 h1 hj h2
  have : InBox (s1 ++ n :: s2) (i1 ++ j :: i2) := h1.append (List.Forall₂.cons hj h2)
  dsimp only
  rw [ha, hb, bindex_self this, bindex_one h1 h2]

theorem insert_at (l m : List Nat) (a : Nat) : (l ++ m).insertIdx l.length a = l ++ a :: m := by
  induction l with
  | nil => simp
  | cons b l ih => simp [ih]

theorem expand_at (a : NDArray α) (s1 s2 : List Nat) (k : Nat) (hk : k = s1.length) (ha : a.shape = s1 ++ s2) :
    ∃ r, expandDims a (k : Int) = some r ∧ r.shape = s1 ++ 1 :: s2 ∧ ∀ i1 j i2, i1.length = s1.length → r.get (i1 ++ j :: i2) = a.get (i1 ++ i2) := by
  subst hk
  have hn : normAxis (a.shape.length + 1) (s1.length : Int) = some s1.length := by
    simp only [normAxis, ha, List.length_append]
    rw [if_pos (by omega), if_pos (by omega)]
    simp
  refine ⟨⟨a.shape.insertIdx s1.length 1, fun i => a.get (i.eraseIdx s1.length)⟩, by simp [expandDims, hn], ?_, ?_⟩
  · dsimp only
    rw [ha, insert_at]
  · intro i1 j i2 h
    dsimp only
    rw [← h, List.eraseIdx_append_of_length_le (le_refl _)]
    simp

theorem where_same (c : NDArray Bool) (x y : NDArray α) (s : List Nat) (hc : c.shape = s) (hx : x.shape = s) (hy : y.shape = s) :
    ∃ r, whereA c x y = some r ∧ r.shape = s ∧ ∀ i, InBox s i → r.get i = if c.get i then x.get i else y.get i := by
  obtain ⟨xy, h1, h2, h3⟩ := zip_same (fun a b => (a, b)) x y s hx hy
  obtain ⟨r, h4, h5, h6⟩ := zip_same (fun b (p : α × α) => if b then p.1 else p.2) c xy s hc h2
  refine ⟨r, by rw [whereA, h1]; exact h4, h5, fun i hi => ?_⟩
  rw [h6 i hi, h3 i hi]

theorem swap2_snoc (l : List Nat) (a b : Nat) : swap2 (l ++ [a, b]) = l ++ [b, a] := by simp [swap2]

/-- The array in which the loops reduce over the axis before the last one. -/
theorem forLoop_spec (x : NDArray α) (b : List Nat) (n : Nat) (hx : x.shape = b ++ [n]) :
    ∃ s1 s2, b = s1 ++ s2 ∧ (forLoop x).2 = s1.length ∧ (forLoop x).1.shape = s1 ++ n :: s2 ∧
      ∀ i1 j i2, i1.length = s1.length → i2.length = s2.length → (forLoop x).1.get (i1 ++ j :: i2) = x.get (i1 ++ i2 ++ [j]) := by
  rcases List.eq_nil_or_concat b with rfl | ⟨c, m, rfl⟩
  · refine ⟨[], [], rfl, ?_, ?_, ?_⟩
    · simp [forLoop, hx]
    · simp [forLoop, hx]
    · intro i1 j i2 h1 h2
      rw [List.length_eq_zero_iff.1 h1, List.length_eq_zero_iff.1 h2]
      simp [forLoop, hx]
  · rw [List.concat_eq_append] at hx ⊢
    refine ⟨c, [m], rfl, ?_, ?_, ?_⟩
    · simp [forLoop, hx]
    · simp [forLoop, hx, swapLast, swap2_snoc]
    · intro i1 j i2 h1 h2
      obtain ⟨k, rfl⟩ := List.length_eq_one_iff.1 h2
      simp [forLoop, hx, swapLast, swap2_snoc]

theorem reduce_at (f : List α → β) (a : NDArray α) (s1 s2 : List Nat) (n k : Nat) (hk : k = s1.length) (ha : a.shape = s1 ++ n :: s2) :
    (reduceAxis f a k).shape = s1 ++ s2 ∧ ∀ i1 i2, i1.length = s1.length →
      (reduceAxis f a k).get (i1 ++ i2) = f ((List.range n).map fun j => a.get (i1 ++ j :: i2)) := by
  subst hk
  constructor
  · simp only [reduceAxis, ha]
    rw [List.eraseIdx_append_of_length_le (le_refl _)]
    simp
  · intro i1 i2 h
    simp only [reduceAxis, ha]
    have e : (s1 ++ n :: s2).getD s1.length 0 = n := by simp
    rw [e]
    congr 1
    refine List.map_congr_left fun j _ => ?_
    rw [← h, insert_at]

theorem split_box {s1 s2 i : List Nat} (h : InBox (s1 ++ s2) i) : ∃ i1 i2, i = i1 ++ i2 ∧ InBox s1 i1 ∧ InBox s2 i2 := by
  induction s1 generalizing i with
  | nil => exact ⟨[], i, rfl, List.Forall₂.nil, h⟩
  | cons n s ih =>
    cases h with
    | cons hk hr =>
      obtain ⟨i1, i2, rfl, h1, h2⟩ := ih hr
      exact ⟨_ :: i1, i2, rfl, List.Forall₂.cons hk h1, h2⟩

/-! ### The searches -/

theorem loop_spec {b : List Nat} {P : NDArray Word → Option (NDArray Bool)} {p : List Nat → Word → Bool} (hP : Pointwise b P p) (l : List Nat) :
    ∀ t, t.shape = b → ∃ r, l.foldlM (fun s i => loopBodyA P i s) t = some r ∧ r.shape = b ∧
      ∀ i, InBox b i → r.get i = l.foldl (fun s k => loopBody (p i) k s) (t.get i) := by
  induction l with
  | nil => intro t ht; exact ⟨t, rfl, ht, fun i _ => rfl⟩
  | cons k l ih =>
    intro t ht
    obtain ⟨s, h1, h2, h3⟩ := hP (mapA (fun w => w ||| 1#32 <<< (30 - k)) t) ht
    obtain ⟨u, h4, h5, h6⟩ := zip_same (fun w v : Word => w ||| v) t (mapA (fun q => if q then 0#32 else 1#32 <<< (30 - k)) s) b ht h2
    have hb : loopBodyA P k t = some u := by simp [loopBodyA, h1, h4]
    obtain ⟨r, h7, h8, h9⟩ := ih u h5
    refine ⟨r, by rw [List.foldlM_cons, hb]; exact h7, h8, fun i hi => ?_⟩
    rw [h9 i hi, List.foldl_cons, h6 i hi]
    simp only [mapA, h3 i hi, loopBody]

theorem int32_rows {b : List Nat} {P : NDArray Word → Option (NDArray Bool)} {p : List Nat → Word → Bool} (hP : Pointwise b P p) :
    ∃ r, int32BsearchA b P = some r ∧ r.shape = b ∧ ∀ i, InBox b i → r.get i = int32Bsearch (p i) := by
  obtain ⟨s, h1, h2, h3⟩ := hP (fullA b 0#32) rfl
  obtain ⟨u, h4, h5, h6⟩ := zip_same (fun w v : Word => w ||| v) (fullA b 0#32) (mapA (fun q => if q then 1#32 <<< 31 else 0#32) s) b rfl h2
  obtain ⟨r, h7, h8, h9⟩ := loop_spec hP (List.range 31) u h5
  refine ⟨r, ?_, h8, fun i hi => ?_⟩
  · simp only [int32BsearchA, h1, Option.bind_some, h4]
    exact h7
  · rw [h9 i hi, h6 i hi]
    simp only [mapA, h3 i hi, fullA]
    rfl

theorem pred_pointwise {b : List Nat} {P : NDArray Word → Option (NDArray Bool)} {p : List Nat → Word → Bool} (hP : Pointwise b P p) :
    Pointwise b (int32PredicateA P) fun i => int32Predicate (p i) := by
  intro t ht
  obtain ⟨s, h1, h2, h3⟩ := hP (mapA monoBits t) ht
  obtain ⟨r, h4, h5, h6⟩ := where_same (mapA (fun w => (w &&& exponentBits) != exponentBits) (mapA monoBits t)) s
    (mapA (fun w => (0#32).sle w) (mapA monoBits t)) b ht h2 ht
  refine ⟨r, by simp only [int32PredicateA, h1, Option.bind_some]; exact h4, h5, fun i hi => ?_⟩
  rw [h6 i hi, h3 i hi]
  rfl

theorem float32_rows {b : List Nat} {P : NDArray Word → Option (NDArray Bool)} {p : List Nat → Word → Bool} (hP : Pointwise b P p) :
    ∃ r, float32BsearchA b P = some r ∧ r.shape = b ∧ ∀ i, InBox b i → r.get i = float32Bsearch (p i) := by
  obtain ⟨r, h1, h2, h3⟩ := int32_rows (pred_pointwise hP)
  refine ⟨mapA monoBits r, by rw [float32BsearchA, h1]; rfl, h2, fun i hi => ?_⟩
  simp only [mapA, h3 i hi]
  rfl

/-! ### The masks -/

theorem topk_pointwise (gt : Word → Word → Bool) (x : NDArray Word) (b : List Nat) (n k : Nat) (hx : x.shape = b ++ [n]) :
    Pointwise b (topkPredicateA gt x k) fun i => topkPredicate gt (row x n i) k := by
  intro t ht
  obtain ⟨s1, s2, rfl, hk, hs, hg⟩ := forLoop_spec x b n hx
  obtain ⟨e, h1, h2, h3⟩ := expand_at (mapA fneg t) s1 s2 _ hk ht
  obtain ⟨z, h4, h5, h6⟩ := zip_one gt (forLoop x).1 e s1 s2 n hs h2
  obtain ⟨h7, h8⟩ := reduce_at (fun bs : List Bool => bs.countP id) z s1 s2 n _ hk h5
  refine ⟨mapA (fun n => decide (n ≥ k)) (reduceAxis (fun bs => List.countP id bs) z (forLoop x).2),
    by simp only [topkPredicateA, h1, Option.bind_some, h4, Option.map_some], h7, fun i hi => ?_⟩
  obtain ⟨i1, i2, rfl, hi1, hi2⟩ := split_box hi
  simp only [mapA]
  rw [h8 i1 i2 hi1.length]
  unfold topkPredicate row
  have e1 : (List.range n).map (fun j => z.get (i1 ++ j :: i2)) = (List.range n).map fun j => gt (x.get (i1 ++ i2 ++ [j])) (fneg (t.get (i1 ++ i2))) := by
    refine List.map_congr_left fun j hj => ?_
    rw [h6 i1 j i2 hi1 (List.mem_range.1 hj) hi2, hg i1 j i2 hi1.length hi2.length, h3 i1 0 i2 hi1.length]
    rfl
  dsimp only
  rw [e1, List.countP_map, List.countP_map]
  rfl

theorem mask_last (keepVal : NDArray Word) (x : NDArray Word) (c : NDArray Word) (ge : Word → Word → Bool) (b : List Nat) (n : Nat) (rv : Word)
    (hk : keepVal.shape = b ++ [n]) (hx : x.shape = b ++ [n]) (hc : c.shape = b) :
    ∃ r, ((expandDims c (c.shape.length : Int)).bind fun c => (zipA ge keepVal c).bind fun keep => whereA keep x (fullA x.shape rv)) = some r ∧
      r.shape = b ++ [n] ∧ ∀ i j, InBox b i → j < n → r.get (i ++ [j]) = if ge (keepVal.get (i ++ [j])) (c.get i) then x.get (i ++ [j]) else rv := by
  obtain ⟨e, h1, h2, h3⟩ := expand_at c b [] c.shape.length (by rw [hc]) (by rw [hc, List.append_nil])
  obtain ⟨z, h4, h5, h6⟩ := zip_one ge keepVal e b [] n hk h2
  obtain ⟨r, h7, h8, h9⟩ := where_same z x (fullA x.shape rv) (b ++ [n]) h5 hx hx
  refine ⟨r, by simp only [h1, Option.bind_some, h4, h7], h8, fun i j hi hj => ?_⟩
  rw [h9 _ (hi.append (List.Forall₂.cons hj List.Forall₂.nil)), h6 i j [] hi hj List.Forall₂.nil, h3 i 0 [] hi.length, List.append_nil]
  rfl

/-- C130: top-k masking of an array of any rank masks each of its rows. -/
theorem C130_topk_rows (gt ge : Word → Word → Bool) (x : NDArray Word) (b : List Nat) (n k : Nat) (rv : Word) (hx : x.shape = b ++ [n]) :
    ∃ r, topkMaskA gt ge x k rv = some r ∧ r.shape = x.shape ∧ ∀ i, InBox b i → row r n i = topkMask gt ge (row x n i) k rv := by
  obtain ⟨c, h1, h2, h3⟩ := float32_rows (topk_pointwise gt x b n k hx)
  obtain ⟨r, h4, h5, h6⟩ := mask_last x x (mapA fneg c) ge b n rv hx hx h2
  refine ⟨r, ?_, by rw [h5, hx], fun i hi => ?_⟩
  · have hd : x.shape.dropLast = b := by rw [hx, List.dropLast_concat]
    have h0 : x.shape.length ≠ 0 := by simp [hx]
    rw [topkMaskA, if_neg h0, hd, h1]
    exact h4
  · unfold topkMask
    rw [row, row, List.map_map]
    refine List.map_congr_left fun j hj => ?_
    rw [h6 i j hi (List.mem_range.1 hj)]
    simp only [mapA, h3 i hi]
    rfl

theorem topp_pointwise (ge : Word → Word → Bool) (sum : List Word → Rat) (x : NDArray Word) (b : List Nat) (n : Nat) (p : Rat) (hx : x.shape = b ++ [n]) :
    Pointwise b (toppPredicateA ge sum x p) fun i => toppPredicate ge sum (row x n i) p := by
  intro t ht
  obtain ⟨s1, s2, rfl, hk, hs, hg⟩ := forLoop_spec x b n hx
  obtain ⟨e, h1, h2, h3⟩ := expand_at t s1 s2 _ hk ht
  obtain ⟨z, h4, h5, h6⟩ := zip_one ge (forLoop x).1 e s1 s2 n hs h2
  obtain ⟨w, h9, h10, h11⟩ := where_same z (forLoop x).1 (fullA (forLoop x).1.shape 0#32) _ h5 hs hs
  obtain ⟨h7, h8⟩ := reduce_at sum w s1 s2 n _ hk h10
  refine ⟨mapA (fun mass => decide (mass < p)) (reduceAxis sum w (forLoop x).2),
    by simp only [toppPredicateA, h1, Option.bind_some, h4, h9, Option.map_some], h7, fun i hi => ?_⟩
  obtain ⟨i1, i2, rfl, hi1, hi2⟩ := split_box hi
  simp only [mapA]
  rw [h8 i1 i2 hi1.length]
  unfold toppPredicate row
  rw [List.map_map]
  have e1 : (List.range n).map (fun j => w.get (i1 ++ j :: i2)) =
      (List.range n).map ((fun v => if ge v (t.get (i1 ++ i2)) then v else 0#32) ∘ fun j => x.get (i1 ++ i2 ++ [j])) := by
    refine List.map_congr_left fun j hj => ?_
    rw [h11 _ (hi1.append (List.Forall₂.cons (List.mem_range.1 hj) hi2)), h6 i1 j i2 hi1 (List.mem_range.1 hj) hi2, hg i1 j i2 hi1.length hi2.length,
      h3 i1 0 i2 hi1.length]
    rfl
  rw [e1]

theorem softmax_row (softmax : List Word → List Word) (hs : ∀ l, (softmax l).length = l.length) (x : NDArray Word) (b : List Nat) (n : Nat)
    (hx : x.shape = b ++ [n]) (i : List Nat) : row (softmaxA softmax x) n i = softmax (row x n i) := by
  have hn : x.shape.getLastD 0 = n := by simp [hx]
  have key : ∀ l : List Word, l.length = n → (List.range n).map (fun j => l.getD j 0#32) = l := by
    intro l hl
    refine List.ext_getElem (by simp [hl]) fun j h1 h2 => ?_
    simp [h2]
  rw [← key (softmax (row x n i)) (by rw [hs]; simp [row])]
  unfold row
  refine List.map_congr_left fun j _ => ?_
  have hl : (i ++ [j]).getLastD 0 = j := by simp
  simp only [softmaxA, hn, List.dropLast_concat, hl]

/-- C130: top-p masking of an array of any rank masks each of its rows. -/
theorem C130_topp_rows (ge : Word → Word → Bool) (sum : List Word → Rat) (softmax : List Word → List Word) (hs : ∀ l, (softmax l).length = l.length)
    (x : NDArray Word) (b : List Nat) (n : Nat) (p : Rat) (rv : Word) (hx : x.shape = b ++ [n]) :
    ∃ r, toppMaskA ge sum softmax x p rv = some r ∧ r.shape = x.shape ∧
      ∀ i, InBox b i → row r n i = toppMask ge sum (row x n i) (softmax (row x n i)) p rv := by
  obtain ⟨c, h1, h2, h3⟩ := float32_rows (topp_pointwise ge sum (softmaxA softmax x) b n p hx)
  obtain ⟨r, h4, h5, h6⟩ := mask_last (softmaxA softmax x) x c ge b n rv hx hx h2
  refine ⟨r, ?_, by rw [h5, hx], fun i hi => ?_⟩
  · have hd : x.shape.dropLast = b := by rw [hx, List.dropLast_concat]
    have h0 : x.shape.length ≠ 0 := by simp [hx]
    rw [toppMaskA, if_neg h0, hd]
    dsimp only
    rw [h1]
    exact h4
  · rw [← softmax_row softmax hs x b n hx i]
    unfold toppMask
    simp only [row, List.zipWith_map_left, List.zipWith_map_right, List.zipWith_self]
    refine List.map_congr_left fun j hj => ?_
    rw [h6 i j hi (List.mem_range.1 hj), h3 i hi]
    rfl

/-- C130: `int32_bsearch` and `float32_bsearch` find the threshold of every element of the batch. -/
theorem C130_bsearch (b : List Nat) (P : NDArray Word → Option (NDArray Bool)) (p : List Nat → Word → Bool) (hP : Pointwise b P p) :
    (∃ r, int32BsearchA b P = some r ∧ r.shape = b ∧ ∀ i, InBox b i → MonoInt (p i) →
      ((∃ y, p i y = false) → IsLargestFalse (p i) (r.get i)) ∧ ((∀ y, p i y = true) → r.get i = BitVec.intMin 32)) ∧
    (∃ r, float32BsearchA b P = some r ∧ r.shape = b ∧ ∀ i, InBox b i → MonoFloat (p i) →
      ((∃ y, IsFinite y ∧ p i y = false) → IsLargestFalseFloat (p i) (r.get i)) ∧ ((∀ y, IsFinite y → p i y = true) → decode (r.get i) = .negInf)) := by
  obtain ⟨r, h1, h2, h3⟩ := int32_rows hP
  obtain ⟨q, h4, h5, h6⟩ := float32_rows hP
  refine ⟨⟨r, h1, h2, fun i hi hm => ?_⟩, ⟨q, h4, h5, fun i hi hm => ?_⟩⟩
  · rw [h3 i hi]; exact C01_int32_bsearch (p i) hm
  · rw [h6 i hi]; exact C03_float32_bsearch (p i) hm

/-- C130: an entry of an array of any rank is kept by `topk_mask` iff fewer than `k` entries of its own row are larger. -/
theorem C130_topk (x : NDArray Word) (b : List Nat) (n k : Nat) (rv : Word) (hk : 1 ≤ k) (hx : x.shape = b ++ [n]) :
    ∃ r, topkMaskA fgt fge x k rv = some r ∧ r.shape = x.shape ∧
      ∀ i, InBox b i → (∀ j < n, ¬ IsNaN (x.get (i ++ [j])) ∧ decode (x.get (i ++ [j])) ≠ .negInf) →
        ∀ j < n, r.get (i ++ [j]) =
          if ((List.range n).filter fun j' => fgt (x.get (i ++ [j'])) (x.get (i ++ [j]))).length < k then x.get (i ++ [j]) else rv := by
  obtain ⟨r, h1, h2, h3⟩ := C130_topk_rows fgt fge x b n k rv hx
  refine ⟨r, h1, h2, fun i hi hf j hj => ?_⟩
  have h := h3 i hi
  rw [C04_topk_mask (row x n i) k rv hk (by
    intro v hv
    obtain ⟨j, hj, rfl⟩ := List.mem_map.1 hv
    exact hf j (List.mem_range.1 hj))] at h
  have hj' := congrArg (fun l => l[j]?) h
  simp only [row, List.getElem?_map, List.getElem?_range hj, Option.map_some, Option.some.injEq, List.countP_map] at hj'
  rw [hj', List.countP_eq_length_filter]
  rfl

/-- C130: in every row `topp_mask` keeps the most probable tokens whose mass reaches `p`, and no more than needed. -/
theorem C130_topp (sum : List Word → Rat) (hsum : MonoSum sum) (softmax : List Word → List Word) (hs : ∀ l, (softmax l).length = l.length)
    (x : NDArray Word) (b : List Nat) (n : Nat) (p : Rat) (rv : Word) (hx : x.shape = b ++ [n]) :
    ∃ r, toppMaskA fge sum softmax x p rv = some r ∧ r.shape = x.shape ∧
      ∀ i, InBox b i → ∀ probs, softmax (row x n i) = probs → (∀ v ∈ probs, IsFinite v ∧ fle 0#32 v = true) →
        ∃ keep : Word → Bool, (∀ j < n, r.get (i ++ [j]) = if keep (probs.getD j 0#32) then x.get (i ++ [j]) else rv) ∧
          (∀ v ∈ probs, ∀ w ∈ probs, fle v w = true → keep v = true → keep w = true) ∧
          (p ≤ sum probs → p ≤ massOf sum probs keep ∧
            ∀ U : Word → Bool, (∀ v ∈ probs, ∀ w ∈ probs, fle v w = true → U v = true → U w = true) →
              (∃ v ∈ probs, U v = true) → p ≤ massOf sum probs U → ∀ v ∈ probs, keep v = true → U v = true) ∧
          (sum probs < p → ∀ v ∈ probs, keep v = true) := by
  obtain ⟨r, h1, h2, h3⟩ := C130_topp_rows fge sum softmax hs x b n p rv hx
  refine ⟨r, h1, h2, fun i hi probs hp hf => ?_⟩
  subst hp
  obtain ⟨keep, k1, k2, k3, k4⟩ := C05_topp_mask sum hsum (row x n i) (softmax (row x n i)) p rv hf
  refine ⟨keep, fun j hj => ?_, k2, k3, k4⟩
  have h := (h3 i hi).trans k1
  have hl : j < (softmax (row x n i)).length := by rw [hs]; simpa [row] using hj
  have hj' := congrArg (fun l => l[j]?) h
  rw [List.getElem?_zipWith, List.getElem?_eq_getElem hl] at hj'
  simp only [row, List.getElem?_map, List.getElem?_range hj, Option.map_some, Option.some.injEq] at hj'
  rw [hj', List.getD_eq_getElem?_getD, List.getElem?_eq_getElem hl]
  rfl

/-! ### The hypotheses hold of concrete arrays -/

/-- An array of shape (2, 2, 3) of numbers 1.0, 2.0, 1.5 in different orders. -/
def exX : NDArray Word := ⟨[2, 2, 3], fun i => [0x3f800000#32, 0x40000000#32, 0x3fc00000#32].getD ((i.getD 0 0 + i.getD 1 0 + i.getD 2 0) % 3) 0#32⟩

example : exX.shape = [2, 2] ++ [3] := rfl
example : InBox [2, 2] [1, 0] := by simp [InBox]
example : ∀ j < 3, ¬ IsNaN (exX.get ([1, 0] ++ [j])) ∧ decode (exX.get ([1, 0] ++ [j])) ≠ .negInf := by
  intro j hj
  have hv' : IsFinite (exX.get ([1, 0] ++ [j])) := by
    rw [isFinite_iff]
    have : j = 0 ∨ j = 1 ∨ j = 2 := by omega
    rcases this with rfl | rfl | rfl <;> decide
  refine ⟨finite_not_nan hv', ?_⟩
  obtain ⟨q, hq⟩ := hv'
  rw [hq]
  simp
example : ∃ r, topkMaskA fgt fge exX 1 0#32 = some r ∧ r.get [1, 0, 0] = 0x40000000#32 ∧ r.get [1, 0, 1] = 0#32 := by
  obtain ⟨r, h1, -, h2⟩ := C130_topk exX [2, 2] 3 1 0#32 (le_refl _) rfl
  have h := h2 [1, 0] (by simp [InBox]) (by
    intro j hj
    have hv' : IsFinite (exX.get ([1, 0] ++ [j])) := by
      rw [isFinite_iff]
      have : j = 0 ∨ j = 1 ∨ j = 2 := by omega
      rcases this with rfl | rfl | rfl <;> decide
    refine ⟨finite_not_nan hv', ?_⟩
    obtain ⟨q, hq⟩ := hv'
    rw [hq]
    simp)
  refine ⟨r, h1, (h 0 (by omega)).trans ?_, (h 1 (by omega)).trans ?_⟩ <;> decide +kernel

/-- A predicate with a threshold for every element. -/
example (thr : NDArray Word) : Pointwise thr.shape (fun t => zipA (fun w v => decide (w.toInt > v.toInt)) t thr) (fun i w => decide (w.toInt > (thr.get i).toInt)) ∧
    ∀ i, MonoInt (fun w => decide (w.toInt > (thr.get i).toInt)) := by
  refine ⟨fun t ht => zip_same _ t thr _ ht rfl, fun i a b hab ha => ?_⟩
  simp at *
  omega

/-- A function on rows that keeps their lengths. -/
example : ∀ l : List Word, (l.map fun _ => 0x3f000000#32).length = l.length := by simp
example : MonoSum (fun _ => 1) ∧ ∀ v ∈ [0x3f000000#32, 0x3f000000#32], IsFinite v ∧ fle 0#32 v = true := by
  refine ⟨fun _ _ _ _ _ => le_refl _, fun v hv => ?_⟩
  simp only [List.mem_cons, List.not_mem_nil, or_false] at hv
  have : v = 0x3f000000#32 := by rcases hv with h | h <;> exact h
  subst this
  exact ⟨by rw [isFinite_iff]; decide, by decide +kernel⟩

end Verif.BatchSearch
