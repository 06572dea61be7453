import Verif.Model.Infer
import Verif.Spec.Infer
import Mathlib.Data.Multiset.Bind
/- Property C36. -/
namespace Verif.Infer

open Spec

variable {X Y A : Type}

/-! Sharding and batching -/

theorem enumerate_length (i : Nat) (xs : List X) : (enumerate i xs).length = xs.length := by
  induction xs generalizing i with
  | nil => rfl
  | cons x xs ih => simp [enumerate, ih]

theorem enumerate_getElem? (i j : Nat) (xs : List X) : (enumerate i xs)[j]? = xs[j]?.map (fun x => (((i + j : Nat) : Int), x)) := by
  induction xs generalizing i j with
  | nil => simp [enumerate]
  | cons x xs ih =>
    cases j with
    | zero => simp [enumerate]
    | succ j => simp only [enumerate, List.getElem?_cons_succ, ih]; congr 2; funext x; congr 2; omega

theorem shardFrom_append (n s i : Nat) (a b : List X) :
    shardFrom n s i (a ++ b) = shardFrom n s i a ++ shardFrom n s (i + a.length) b := by
  induction a generalizing i with
  | nil => simp [shardFrom]
  | cons x a ih =>
    simp only [List.cons_append, shardFrom, ih, List.length_cons]
    rw [show i + 1 + a.length = i + (a.length + 1) by omega]
    split_ifs <;> rfl

theorem shardFrom_period (n s i : Nat) (a : List X) : shardFrom n s (i + n) a = shardFrom n s i a := by
  induction a generalizing i with
  | nil => rfl
  | cons x a ih =>
    simp only [shardFrom, Nat.add_mod_right]
    rw [show i + n + 1 = i + 1 + n by omega, ih]

theorem shardFrom_short (n s i : Nat) (a : List X) (h : i + a.length ≤ n) :
    shardFrom n s i a = if i ≤ s then (a[s - i]?).toList else [] := by
  induction a generalizing i with
  | nil => simp [shardFrom]
  | cons x a ih =>
    simp only [List.length_cons] at h
    simp only [shardFrom, Nat.mod_eq_of_lt (show i < n by omega), ih (i + 1) (by omega)]
    by_cases h1 : i = s
    · subst h1; simp
    · rw [if_neg h1]
      by_cases h2 : i + 1 ≤ s
      · rw [if_pos h2, if_pos (by omega), show s - i = (s - (i + 1)) + 1 by omega, List.getElem?_cons_succ]
      · rw [if_neg h2, if_neg (by omega)]

/-- A shard of a list of n·q elements. -/
theorem shard_eq (n s q : Nat) (hs : s < n) (l : List X) (hl : l.length = n * q) :
    shardFrom n s 0 l = (List.range q).filterMap (fun j => l[s + n * j]?) := by
  induction q generalizing l with
  | zero =>
    have : l = [] := List.eq_nil_of_length_eq_zero (by simpa using hl)
    subst this; rfl
  | succ q ih =>
    have h1 : l = l.take n ++ l.drop n := (List.take_append_drop n l).symm
    have hn : n ≤ l.length := by rw [hl, Nat.mul_add]; omega
    have hd : (l.drop n).length = n * q := by rw [List.length_drop, hl, Nat.mul_add]; omega
    have h2 : shardFrom n s 0 l = shardFrom n s 0 (l.take n) ++ shardFrom n s 0 (l.drop n) := by
      conv_lhs => rw [h1]
      rw [shardFrom_append, List.length_take, Nat.min_eq_left hn, shardFrom_period]
    rw [h2, shardFrom_short n s 0 (l.take n) (by simp), if_pos (by omega), ih (l.drop n) hd, List.range_succ_eq_map]
    have h3 : (l.take n)[s - 0]? = some (l[s]'(by omega)) := by
      rw [Nat.sub_zero, List.getElem?_take_of_lt hs, List.getElem?_eq_getElem (by omega)]
    rw [h3]
    have h4 : l[s + n * 0]? = some (l[s]'(by omega)) := by rw [Nat.mul_zero, Nat.add_zero, List.getElem?_eq_getElem]
    rw [List.filterMap_cons, h4]
    simp only [Option.toList_some, List.cons_append, List.nil_append, List.cons.injEq, true_and]
    rw [List.filterMap_map]
    congr 1
    funext j
    simp only [List.getElem?_drop, Function.comp]
    congr 1
    rw [Nat.succ_eq_add_one, Nat.mul_add]; omega

theorem filterMap_range_get (l : List X) (q : Nat) (f : Nat → Nat) (h : ∀ j, j < q → f j < l.length) (d : X) :
    (List.range q).filterMap (fun j => l[f j]?) = (List.range q).map (fun j => l.getD (f j) d) := by
  rw [← List.filterMap_eq_map]
  apply List.filterMap_congr
  intro j hj
  have := h j (List.mem_range.1 hj)
  simp [List.getD_eq_getElem?_getD, List.getElem?_eq_getElem this]

/-- The global batches in terms of positions. -/
theorem globalBatch_eq (n p m k : Nat) (hp : 0 < p) (hk : k < m) (l : List X) (hl : l.length = n * (m * p)) (d : X) :
    globalBatch n p l k = (List.range n).flatMap (fun s => (List.range p).map (fun j => l.getD (s + n * (k * p + j)) d)) := by
  unfold globalBatch
  apply List.flatMap_congr
  intro s hs
  have hs := List.mem_range.1 hs
  have hb : ∀ j, j < m * p → s + n * j < l.length := by
    intro j hj
    rw [hl]
    have := Nat.mul_le_mul_left n (show j + 1 ≤ m * p by omega)
    rw [Nat.mul_add, Nat.mul_one] at this; omega
  rw [shard_eq n s (m * p) hs l hl, filterMap_range_get l (m * p) (fun j => s + n * j) hb d]
  unfold batches
  rw [List.length_map, List.length_range, Nat.mul_div_cancel _ hp]
  rw [List.getElem?_map, List.getElem?_range hk]
  simp only [Option.map_some, Option.getD_some]
  apply List.ext_getElem?
  intro j
  have hkp : k * p + p ≤ m * p := by
    have := Nat.mul_le_mul_right p (show k + 1 ≤ m by omega); rw [Nat.add_mul, Nat.one_mul] at this; omega
  by_cases hj : j < p
  · rw [List.getElem?_take_of_lt hj, List.getElem?_drop, List.getElem?_map, List.getElem?_map, List.getElem?_range (by omega),
      List.getElem?_range hj]
    simp
  · rw [List.getElem?_eq_none (by simp; omega), List.getElem?_eq_none (by simp; omega)]

/-- All positions, batch by batch, are a permutation of the positions. -/
theorem positions_perm (n p m : Nat) :
    ((List.range m).flatMap (fun k => (List.range n).flatMap (fun s => (List.range p).map (fun j => s + n * (k * p + j))))).Perm
      (List.range (n * (m * p))) := by
  have block : ∀ k, ((List.range n).flatMap (fun s => (List.range p).map (fun j => s + n * (k * p + j)))).Perm
      ((List.range (n * p)).map (fun i => n * (k * p) + i)) := by
    intro k
    have h1 : ((List.range n).flatMap (fun s => (List.range p).map (fun j => s + n * (k * p + j)))).Perm
        ((List.range p).flatMap (fun j => (List.range n).map (fun s => s + n * (k * p + j)))) := by
      rw [← Multiset.coe_eq_coe]
      have := Multiset.bind_bind (List.range n : Multiset Nat) (List.range p : Multiset Nat) (f := fun s j => ({s + n * (k * p + j)} : Multiset Nat))
      simp only [Multiset.bind_singleton] at this
      simpa [← Multiset.coe_bind, ← Multiset.map_coe] using this
    refine h1.trans ?_
    clear h1
    have : ∀ q, (List.range q).flatMap (fun j => (List.range n).map (fun s => s + n * (k * p + j))) =
        (List.range (n * q)).map (fun i => n * (k * p) + i) := by
      intro q
      induction q with
      | zero => simp
      | succ q ih =>
        rw [List.range_succ, List.flatMap_append, ih, Nat.mul_add, Nat.mul_one, List.range_add, List.map_append]
        simp only [List.flatMap_cons, List.flatMap_nil, List.append_nil, List.map_map, List.append_cancel_left_eq]
        apply List.map_congr_left
        intro s _
        simp only [Function.comp, Nat.mul_add]; omega
    rw [this]
  have : ∀ q, ((List.range q).flatMap (fun k => (List.range n).flatMap (fun s => (List.range p).map (fun j => s + n * (k * p + j))))).Perm
      (List.range (n * (q * p))) := by
    intro q
    induction q with
    | zero => simp
    | succ q ih =>
      rw [List.range_succ, List.flatMap_append, show n * ((q + 1) * p) = n * (q * p) + n * p by ring, List.range_add]
      simp only [List.flatMap_cons, List.flatMap_nil, List.append_nil]
      exact ih.append (block q)
  exact this m

/-! Padding -/

theorem flatten_replicate_single (m : Nat) (a : X) : (List.replicate m [a]).flatten = List.replicate m a := by
  induction m with
  | zero => rfl
  | succ m ih => simp [List.replicate_succ, ih]

/-- The padded data set: the enumerated examples, then copies of the first one under index -1, a whole number of batches. -/
theorem pad_eq (B : Nat) (hB : 0 < B) (x : X) (xs : List X) :
    ∃ m r, 0 < m ∧ pad B (enumerate 0 (x :: xs)) = enumerate 0 (x :: xs) ++ List.replicate r ((-1 : Int), x) ∧
      (pad B (enumerate 0 (x :: xs))).length = B * m := by
  have hlen : (enumerate 0 (x :: xs)).length = xs.length + 1 := by rw [enumerate_length]; rfl
  have hdm := Nat.div_add_mod (xs.length + 1) B
  have hlt := Nat.mod_lt (xs.length + 1) hB
  by_cases h : (xs.length + 1) % B = 0
  · refine ⟨(xs.length + 1) / B, 0, ?_, ?_, ?_⟩
    · apply Nat.pos_of_ne_zero
      intro h0; rw [h0, h] at hdm; omega
    · simp [pad, hlen, h]
    · simp only [pad, hlen, h, ne_eq, not_true_eq_false, if_false]; omega
  · refine ⟨(xs.length + 1) / B + 1, B - (xs.length + 1) % B, Nat.succ_pos _, ?_, ?_⟩
    · simp only [pad, hlen, h, ne_eq, not_false_eq_true, if_true]
      simp [enumerate, flatten_replicate_single]
    · simp only [pad, hlen, h, ne_eq, not_false_eq_true, if_true]
      simp only [enumerate, List.take_succ_cons, List.take_zero, List.map_cons, List.map_nil, flatten_replicate_single,
        List.length_append, List.length_replicate, List.length_cons, enumerate_length, Nat.mul_add, Nat.mul_one]
      omega

/-! Gathering -/

theorem gather_map {Z : Type} (f : Y → Z) (l : List Y) (is : List Int) :
    gather (l.map f) is = (gather l is).map (List.map f) := by
  induction is with
  | nil => rfl
  | cons i is ih =>
    simp only [gather, List.getElem?_map, ih]
    cases l[i.toNat]? <;> cases gather l is <;> rfl

theorem gather_ok (l : List Y) (is : List Int) (h : ∀ i ∈ is, i.toNat < l.length) :
    ∃ out, gather l is = .ok out ∧ out.map some = is.map (fun i => l[i.toNat]?) := by
  induction is with
  | nil => exact ⟨[], rfl, rfl⟩
  | cons i is ih =>
    obtain ⟨out, h1, h2⟩ := ih (fun j hj => h j (List.mem_cons_of_mem _ hj))
    have hi := h i List.mem_cons_self
    refine ⟨l[i.toNat] :: out, ?_, ?_⟩
    · simp only [gather, List.getElem?_eq_getElem hi, h1]
    · simp only [List.map_cons, h2, List.getElem?_eq_getElem hi]

theorem map_some_range (l : List Y) : (List.range l.length).map (fun i => l[i]?) = l.map some := by
  apply List.ext_getElem?
  intro i
  by_cases h : i < l.length
  · simp [h]
  · rw [List.getElem?_eq_none (by simpa using h), List.getElem?_eq_none (by simpa using h)]

theorem gather_perm (l : List Y) (is : List Int) (h : is.Perm (indices l.length)) :
    ∃ out, gather l is = .ok out ∧ out.Perm l := by
  obtain ⟨out, h1, h2⟩ := gather_ok l is (by
    intro i hi
    have := h.mem_iff.1 hi
    simp only [List.mem_map, List.mem_range] at this
    obtain ⟨a, ha, rfl⟩ := this
    simpa using ha)
  refine ⟨out, h1, ?_⟩
  have h3 : (out.map some).Perm (l.map some) := by
    rw [h2]
    refine (h.map _).trans ?_
    rw [List.map_map, ← map_some_range l]
    exact List.Perm.of_eq (List.map_congr_left (fun i _ => by simp))
  exact (List.map_perm_map_iff (Option.some_injective _)).1 h3

/-! The whole pass -/

theorem zip_of_maps (l : List (Int × Y)) : (l.map (·.1)).zip (l.map (·.2)) = l := by
  induction l with
  | nil => rfl
  | cons a l ih => simp [ih]

theorem map_getD_range (l : List X) (d : X) : (List.range l.length).map (fun i => l.getD i d) = l := by
  apply List.ext_getElem?
  intro i
  by_cases h : i < l.length
  · simp [h]
  · rw [List.getElem?_eq_none (by simpa using h), List.getElem?_eq_none (by simpa using h)]

theorem globalBatch_perm (n p m : Nat) (hp : 0 < p) (l : List X) (hl : l.length = n * (m * p)) :
    ((List.range m).flatMap (globalBatch n p l)).Perm l := by
  cases l with
  | nil =>
    have : ∀ k, k < m → globalBatch n p ([] : List X) k = [] := by
      intro k hk
      unfold globalBatch
      rw [List.flatMap_eq_nil_iff]
      intro s _
      simp [shardFrom, batches]
    rw [List.flatMap_eq_nil_iff.2 (fun k hk => this k (List.mem_range.1 hk))]
  | cons d l =>
    have h1 : (List.range m).flatMap (globalBatch n p (d :: l)) =
        ((List.range m).flatMap (fun k => (List.range n).flatMap (fun s => (List.range p).map (fun j => s + n * (k * p + j))))).map
          (fun i => (d :: l).getD i d) := by
      rw [List.map_flatMap]
      apply List.flatMap_congr
      intro k hk
      rw [globalBatch_eq n p m k hp (List.mem_range.1 hk) _ hl d, List.map_flatMap]
      apply List.flatMap_congr
      intro s _
      rw [List.map_map]; rfl
    rw [h1]
    refine ((positions_perm n p m).map _).trans ?_
    rw [← hl, map_getD_range]

theorem forall₂_get {R : X → Y → Prop} {a : List X} {b : List Y} (h : List.Forall₂ R a b) :
    b.length = a.length ∧ ∀ (i : Nat) (y : Y), b[i]? = some y → ∃ x, a[i]? = some x ∧ R x y := by
  refine ⟨h.length_eq.symm, ?_⟩
  induction h with
  | nil => intro i y hy; simp at hy
  | cons h1 h2 ih =>
    intro i y hy
    cases i with
    | zero => simp at hy; subst hy; exact ⟨_, rfl, h1⟩
    | succ i => simpa using ih i y (by simpa using hy)

theorem forall₂_of_get {R : X → Y → Prop} (a : List X) (b : List Y) (hl : b.length = a.length)
    (h : ∀ (i : Nat) (y : Y), b[i]? = some y → ∃ x, a[i]? = some x ∧ R x y) : List.Forall₂ R a b := by
  induction a generalizing b with
  | nil =>
    have : b = [] := List.eq_nil_of_length_eq_zero hl
    subst this; exact .nil
  | cons x a ih =>
    cases b with
    | nil => simp at hl
    | cons y b =>
      obtain ⟨x', h1, h2⟩ := h 0 y rfl
      simp at h1; subst h1
      exact .cons h2 (ih b (by simpa using hl) (fun i y hy => by simpa using h (i + 1) y (by simpa using hy)))

/-- The entry of the padded data set an output comes from. -/
theorem zip_step {Result : X → Y → Prop} (b : List (Int × X)) (ys : List Y) (h : List.Forall₂ Result (b.map (·.2)) ys) :
    ((b.map (·.1)).zip ys).map (·.1) = b.map (·.1) ∧
      ∀ e ∈ (b.map (·.1)).zip ys, ∃ x, (e.1, x) ∈ b ∧ Result x e.2 := by
  induction b generalizing ys with
  | nil => cases h; exact ⟨rfl, by simp⟩
  | cons a b ih =>
    cases h with
    | cons h1 h2 =>
      obtain ⟨i1, i2⟩ := ih _ h2
      refine ⟨by simp [i1], ?_⟩
      intro e he
      simp only [List.map_cons, List.zip_cons_cons, List.mem_cons] at he
      rcases he with rfl | he
      · exact ⟨a.2, List.mem_cons_self, h1⟩
      · obtain ⟨x, hx, hr⟩ := i2 e he
        exact ⟨x, List.mem_cons_of_mem _ hx, hr⟩

theorem enumerate_fst (i : Nat) (xs : List X) : (enumerate i xs).map (·.1) = (List.range' i xs.length).map Int.ofNat := by
  induction xs generalizing i with
  | nil => rfl
  | cons x xs ih => simp [enumerate, ih, List.range'_succ]

theorem removePadding_ok (all : List (Int × Y)) (N r : Nat)
    (h : (all.map (·.1)).Perm (indices N ++ List.replicate r (-1))) :
    ((removePadding all).map (·.1)).Perm (indices N) := by
  have h1 : (removePadding all).map (·.1) = (all.map (·.1)).filter (fun i => decide (i ≥ 0)) := by
    unfold removePadding
    rw [List.filter_map]; rfl
  rw [h1]
  refine (h.filter _).trans ?_
  rw [List.filter_append, List.filter_eq_self.2, List.filter_eq_nil_iff.2, List.append_nil]
  · intro a ha
    have := List.eq_of_mem_replicate ha
    subst this; decide
  · intro a ha
    simp only [List.mem_map] at ha
    obtain ⟨b, _, rfl⟩ := ha
    simp

/-- What `infer_fn` returns. -/
theorem inferFn_ok (n B : Nat) (hB : 0 < B) (hn : n ∣ B) (Result : X → Y → Prop) (step : Nat → List X → List Y)
    (hstep : RowWise Result step) (xs : List X) (hxs : xs ≠ []) :
    ∃ out, inferFn n B step xs = .ok out ∧ (out.map (·.1)).Perm (indices xs.length) ∧ ∀ e ∈ out, Own Result xs e := by
  cases xs with
  | nil => exact absurd rfl hxs
  | cons x xs =>
  obtain ⟨m, r, hm, hpad, hlen⟩ := pad_eq B hB x xs
  obtain ⟨p, hp⟩ := hn
  have hn0 : 0 < n := Nat.pos_of_ne_zero (by rintro rfl; simp at hp; omega)
  have hp0 : 0 < p := Nat.pos_of_ne_zero (by rintro rfl; simp at hp; omega)
  have hdiv : B / n = p := by rw [hp, Nat.mul_div_cancel_left _ hn0]
  have hlen2 : (pad B (enumerate 0 (x :: xs))).length = n * (m * p) := by rw [hlen, hp]; ring
  have hcount : (batches p (shardFrom n 0 0 (pad B (enumerate 0 (x :: xs))))).length = m := by
    rw [shard_eq n 0 (m * p) hn0 _ hlen2,
      filterMap_range_get _ (m * p) (fun j => 0 + n * j) (by
        intro j hj; rw [hlen2, Nat.zero_add]; exact (Nat.mul_lt_mul_left hn0).2 hj) ((0 : Int), x)]
    simp [batches, Nat.mul_div_cancel _ hp0]
  set ds := pad B (enumerate 0 (x :: xs)) with hds
  set all := (List.range m).flatMap (fun k =>
      ((globalBatch n p ds k).map (·.1)).zip (step k ((globalBatch n p ds k).map (·.2)))) with hall
  have hfst : (all.map (·.1)).Perm (indices (xs.length + 1) ++ List.replicate r (-1)) := by
    have h1 : all.map (·.1) = ((List.range m).flatMap (globalBatch n p ds)).map (·.1) := by
      rw [hall, List.map_flatMap, List.map_flatMap]
      apply List.flatMap_congr
      intro k _
      exact (zip_step _ _ (hstep k _)).1
    rw [h1]
    refine ((globalBatch_perm n p m hp0 ds hlen2).map _).trans (List.Perm.of_eq ?_)
    rw [hpad, List.map_append, enumerate_fst, List.map_replicate, ← List.range_eq_range']
    rfl
  have hown : ∀ e ∈ all, 0 ≤ e.1 → Own Result (x :: xs) e := by
    intro e he h0
    rw [hall, List.mem_flatMap] at he
    obtain ⟨k, hk, he⟩ := he
    obtain ⟨z, hz, hr⟩ := (zip_step _ _ (hstep k _)).2 e he
    have hz2 : (e.1, z) ∈ ds := (globalBatch_perm n p m hp0 ds hlen2).mem_iff.1 (List.mem_flatMap.2 ⟨k, hk, hz⟩)
    rw [hpad, List.mem_append] at hz2
    rcases hz2 with h | h
    · obtain ⟨i, hi⟩ := List.mem_iff_getElem?.1 h
      rw [enumerate_getElem?, Option.map_eq_some_iff] at hi
      obtain ⟨w, hw, hwe⟩ := hi
      simp only [Prod.mk.injEq, Nat.zero_add] at hwe
      exact ⟨i, w, hwe.1.symm, hw, hwe.2 ▸ hr⟩
    · have := List.eq_of_mem_replicate h
      simp only [Prod.mk.injEq] at this
      omega
  set kept := removePadding all with hkept
  have hk1 : (kept.map (·.1)).Perm (indices (xs.length + 1)) := removePadding_ok all _ r hfst
  have hklen : kept.length = xs.length + 1 := by
    have := hk1.length_eq; simpa using this
  obtain ⟨out, ho1, ho2⟩ := gather_perm kept (kept.map (·.1)) (by rw [hklen]; exact hk1)
  refine ⟨out, ?_, (ho2.map _).trans hk1, ?_⟩
  · have e1 : gather (kept.map (·.2)) (kept.map (·.1)) = .ok (out.map (·.2)) := by rw [gather_map, ho1]; rfl
    have e2 : gather (kept.map (·.1)) (kept.map (·.1)) = .ok (out.map (·.1)) := by rw [gather_map, ho1]; rfl
    unfold inferFn
    rw [if_neg (by omega)]
    dsimp only
    rw [hdiv, ← hds, hcount, if_neg (by omega), ← hall, ← hkept, e1, e2]
    dsimp only
    rw [zip_of_maps, if_neg]
    rw [ho2.length_eq, hklen]; simp
  · intro e he
    have := ho2.mem_iff.1 he
    rw [hkept] at this
    obtain ⟨h1, h2⟩ := List.mem_filter.1 this
    exact hown e h1 (by simpa using h2)

/-! Sorting by index -/

theorem eq_indices (is : List Int) (N : Nat) (hs : is.Pairwise (· ≤ ·)) (hp : is.Perm (indices N)) : is = indices N := by
  refine List.Perm.eq_of_pairwise (le := fun a b : Int => a ≤ b) ?_ hs ?_ hp
  · intro a b _ _ h1 h2; omega
  · rw [List.pairwise_map]
    exact (List.pairwise_lt_range).imp (fun h => by simp; omega)

theorem forall₂_of_sorted (Result : X → Y → Prop) (xs : List X) (s : List (Int × Y)) (hs : s.map (·.1) = indices xs.length)
    (ho : ∀ e ∈ s, Own Result xs e) : List.Forall₂ Result xs (s.map (·.2)) := by
  apply forall₂_of_get
  · have := congrArg List.length hs; simpa using this
  · intro i y hy
    rw [List.getElem?_map, Option.map_eq_some_iff] at hy
    obtain ⟨e, he, rfl⟩ := hy
    obtain ⟨j, x, h1, h2, h3⟩ := ho e (List.mem_of_getElem? he)
    have h4 : (s.map (·.1))[i]? = some e.1 := by rw [List.getElem?_map, he]; rfl
    rw [hs, List.getElem?_map, Option.map_eq_some_iff] at h4
    obtain ⟨i', h5, h6⟩ := h4
    have h7 : i' = i := by
      by_cases hlt : i < xs.length
      · rw [List.getElem?_range hlt] at h5; simpa using h5.symm
      · rw [List.getElem?_eq_none (by simpa using hlt)] at h5; simp at h5
    have : j = i := by simp at h6; omega
    subst this
    exact ⟨x, h2, h3⟩

theorem sort_pairwise {Z : Type} (f : Z → Int) (l : List Z) :
    ((l.mergeSort (fun a b => decide (f a ≤ f b))).map f).Pairwise (· ≤ ·) := by
  rw [List.pairwise_map]
  have := List.pairwise_mergeSort (le := fun a b => decide (f a ≤ f b)) (by
    intro a b c h1 h2; simp at *; omega) (by intro a b; simp; omega) l
  exact this.imp (fun h => by simpa using h)

/-- **C36.**  For every data set, batch size and number of shards dividing it: `infer_fn` returns exactly one output for
every example, under its index and with its own result, and none for the padding; sorting by index gives the results in
the order of the data set.  `Result x y` says that `y` is a possible result of `x`. -/
theorem C36_results (n B : Nat) (hB : 0 < B) (hn : n ∣ B) (Result : X → Y → Prop) (step : Nat → List X → List Y)
    (hstep : RowWise Result step) (xs : List X) (hxs : xs ≠ []) :
    ∃ out, inferFn n B step xs = .ok out ∧ (out.map (·.1)).Perm (indices xs.length) ∧ (∀ e ∈ out, Own Result xs e) ∧
      List.Forall₂ Result xs (extract out) := by
  obtain ⟨out, h1, h2, h3⟩ := inferFn_ok n B hB hn Result step hstep xs hxs
  refine ⟨out, h1, h2, h3, ?_⟩
  have hperm := List.mergeSort_perm out (fun a b => decide (a.1 ≤ b.1))
  exact forall₂_of_sorted Result xs _ (eq_indices _ _ (sort_pairwise (fun e : Int × Y => e.1) out) ((hperm.map _).trans h2))
    (fun e he => h3 e (hperm.mem_iff.1 he))

theorem eq_map_of_forall₂ (f : X → Y) (xs : List X) (ys : List Y) (h : List.Forall₂ (fun x y => y = f x) xs ys) :
    ys = xs.map f := by
  induction h with
  | nil => rfl
  | cons h _ ih => rw [List.map_cons, h, ih]

/-- **C36**, the result of each example as a function of the example: the output file is `xs.map f`. -/
theorem C36_map (n B : Nat) (hB : 0 < B) (hn : n ∣ B) (f : X → Y) (xs : List X) (hxs : xs ≠ []) :
    (inferFn n B (fun _ b => b.map f) xs).map extract = .ok (xs.map f) := by
  obtain ⟨out, h1, _, _, h4⟩ := C36_results n B hB hn (fun x y => y = f x) (fun _ b => b.map f) (by
    intro k b
    induction b with
    | nil => exact .nil
    | cons x b ih => exact .cons rfl ih) xs hxs
  rw [h1]
  show Except.ok (extract out) = _
  congr 1
  exact eq_map_of_forall₂ f xs _ h4

/-- **C36**, tokens with auxiliary values: both are put in the order of the data set, and stay together. -/
theorem C36_aux {T A : Type} (n B : Nat) (hB : 0 < B) (hn : n ∣ B) (Result : X → T × A → Prop)
    (step : Nat → List X → List (T × A)) (hstep : RowWise Result step) (xs : List X) (hxs : xs ≠ []) :
    ∃ (out : List (Int × (T × A))) (tokens : List T) (aux : List A), inferFn n B step xs = .ok out ∧
      extractAux (out.map (fun e => (e.1, e.2.1))) (out.map (·.2.2)) = (tokens.map some, aux.map some) ∧
      tokens.length = aux.length ∧ List.Forall₂ Result xs (tokens.zip aux) := by
  obtain ⟨out, h1, h2, h3⟩ := inferFn_ok n B hB hn Result step hstep xs hxs
  set z := (out.map (·.1)).zipIdx.mergeSort (fun a b => decide (a.1 ≤ b.1)) with hz
  have hzp : z.Perm (out.map (·.1)).zipIdx := List.mergeSort_perm _ _
  have hz1 : z.map (·.1) = indices xs.length := by
    apply eq_indices _ _ (sort_pairwise (fun e : Int × Nat => e.1) _)
    refine (hzp.map _).trans ?_
    rw [show (List.map (fun x : Int × Nat => x.1) (out.map (·.1)).zipIdx) = out.map (·.1) from List.zipIdx_map_fst _ _]
    exact h2
  have hsorted : ∃ s : List (Int × (T × A)), s.map some = z.map (fun e => out[e.2]?) ∧ s.map (·.1) = z.map (·.1) ∧ ∀ e ∈ s, e ∈ out := by
    have hmem : ∀ e ∈ z, ∃ o, out[e.2]? = some o ∧ o.1 = e.1 := by
      intro e he
      have := hzp.mem_iff.1 he
      have := List.mk_mem_zipIdx_iff_getElem?.1 (show (e.1, e.2) ∈ _ from this)
      rw [List.getElem?_map, Option.map_eq_some_iff] at this
      exact this
    clear hz1 hzp
    clear_value z
    clear hz
    induction z with
    | nil => exact ⟨[], rfl, rfl, by simp⟩
    | cons e z ih =>
      obtain ⟨s, s1, s2, s3⟩ := ih (fun e he => hmem e (List.mem_cons_of_mem _ he))
      obtain ⟨o, o1, o2⟩ := hmem e List.mem_cons_self
      refine ⟨o :: s, by simp [s1, o1], by simp [s2, o2], ?_⟩
      intro a ha
      rcases List.mem_cons.1 ha with rfl | ha
      · exact List.mem_of_getElem? o1
      · exact s3 a ha
  obtain ⟨s, s1, s2, s3⟩ := hsorted
  have hf := forall₂_of_sorted Result xs s (s2.trans hz1) (fun e he => h3 e (s3 e he))
  refine ⟨out, s.map (·.2.1), s.map (·.2.2), h1, ?_, by simp, ?_⟩
  · have key : (argsort (out.map (·.1))).map (fun i => out[i]?) = s.map some := by
      rw [s1]; simp only [argsort, ← hz, List.map_map]; rfl
    have k2 : ∀ {Z : Type} (g : Int × (T × A) → Z),
        (argsort (out.map (·.1))).map (fun i => (out.map g)[i]?) = (s.map g).map some := by
      intro Z g
      have := congrArg (List.map (Option.map g)) key
      simpa [List.map_map, Function.comp_def] using this
    unfold extractAux
    simp only [List.map_map]
    refine Prod.ext ?_ ?_
    · have := k2 (fun e => e.2.1)
      simpa [List.map_map, Function.comp_def] using this
    · have := k2 (fun e => e.2.2)
      simpa [List.map_map, Function.comp_def] using this
  · rw [show (s.map (·.2.1)).zip (s.map (·.2.2)) = s.map (·.2) by
      clear * -
      induction s with
      | nil => rfl
      | cons a s ih => simp [ih]]
    exact hf

/-- Witness for the hypotheses: a step that sees the whole batch (here: the batch number) but answers row by row. -/
example : RowWise (fun (x : Nat) (y : Nat × Nat) => y.1 = x * 10) (fun k b => b.map (fun x => (x * 10, k))) := by
  intro k b
  induction b with
  | nil => exact .nil
  | cons x b ih => exact .cons rfl ih

example : inferFn 2 4 (fun k b => b.map (fun x => (x * 10, k))) [1, 2, 3, 4, 5] =
    .ok [(0, (10, 0)), (1, (20, 0)), (2, (30, 0)), (3, (40, 0)), (4, (50, 1))] := by rfl

/-- **C36**, a limit: `infer_fn` alone does not restore the order of the data set (`x[all_indices]` applies the
permutation again instead of undoing it); the pairing with the indices, and the sort by index that follows, are needed. -/
theorem C36_not_sorted : inferFn 3 6 (fun _ b => b) ['a', 'b', 'c', 'd', 'e', 'f'] =
    .ok [(0, 'a'), (4, 'e'), (3, 'd'), (2, 'c'), (1, 'b'), (5, 'f')] := by rfl

/-- **C36**, a limit: an empty data set is not an empty result but an error (nothing to concatenate). -/
theorem C36_empty (n B : Nat) (hB : 0 < B) (step : Nat → List X → List Y) : inferFn n B step ([] : List X) = .error .type := by
  have : pad B (enumerate 0 ([] : List X)) = [] := by simp [pad, enumerate]
  unfold inferFn
  rw [if_neg (by omega), this]
  simp [shardFrom, batches]

end Verif.Infer
