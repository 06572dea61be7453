import Verif.Model.BeamDims
import Verif.Lemmas.NDArray
/- C89: the beam dimension of caches and results. -/
namespace Verif.BeamDims
open Verif.ND

variable {K : Type} [Ring K]

namespace Spec

/-- The cache entries with a batch dimension; `index` tells whether the cache index has one, too. -/
def HasBatch (index : Bool) (p : Path) : Prop :=
  p.getLast? ≠ some "cached_bias" ∧ p.getLast? ≠ some "position_embedder_index" ∧ (index = false → p.getLast? ≠ some "cache_index")

def Finite (x : Fl K) : Prop := ∃ v, x = .fin v

end Spec
open Spec

/-! ### Shapes -/

variable {α : Type}

theorem inBox_cons {n i : Nat} {s r : List Nat} : InBox (n :: s) (i :: r) ↔ i < n ∧ InBox s r := by
  unfold InBox
  exact List.forall₂_cons

theorem ravel_merge {L l R r : List Nat} {B E b e : Nat} (hl : InBox L l) :
    ravel (L ++ (B * E) :: R) (l ++ (b * E + e) :: r) = ravel (L ++ B :: E :: R) (l ++ b :: e :: r) := by
  rw [ravel_append hl.length, ravel_append hl.length]
  simp only [List.prod_cons, ravel]
  ring

theorem inBox_split {L l R r : List Nat} {B E b e : Nat} (hl : InBox L l) (hr : InBox R r) (hb : b < B) (he : e < E) :
    InBox (L ++ B :: E :: R) (l ++ b :: e :: r) := hl.append (inBox_cons.2 ⟨hb, inBox_cons.2 ⟨he, hr⟩⟩)

theorem block_lt {B E b e : Nat} (hb : b < B) (he : e < E) : b * E + e < B * E :=
  lt_of_lt_of_le (by rw [Nat.succ_mul]; omega) (Nat.mul_le_mul_right E hb)

theorem inBox_merge {L l R r : List Nat} {B E b e : Nat} (hl : InBox L l) (hr : InBox R r) (hb : b < B) (he : e < E) :
    InBox (L ++ (B * E) :: R) (l ++ (b * E + e) :: r) := hl.append (inBox_cons.2 ⟨block_lt hb he, hr⟩)

/-- **C89**: flattening puts beam `e` of batch row `b` at row `b * E + e`, whatever dimensions come before (scanned layers) and after. -/
theorem C89_flatten (x : NDArray α) (L R : List Nat) (B E : Nat) (hx : x.shape = L ++ B :: E :: R) :
    ∃ y, flattenBeamDim L.length x = some y ∧ y.shape = L ++ (B * E) :: R ∧
      ∀ l b e r, InBox L l → b < B → e < E → InBox R r → y.get (l ++ (b * E + e) :: r) = x.get (l ++ b :: e :: r) := by
  have h1 : x.shape[L.length]? = some B := by rw [hx]; simp
  have h2 : x.shape.eraseIdx L.length = L ++ E :: R := by rw [hx, List.eraseIdx_append_of_length_le (le_refl _)]; simp
  have h3 : (L ++ E :: R)[L.length]? = some E := by simp
  have h4 : (L ++ E :: R).set L.length (E * B) = L ++ (B * E) :: R := by
    rw [List.set_append_right _ _ (le_refl _), Nat.sub_self, List.set_cons_zero, Nat.mul_comm]
  have hp : (L ++ (B * E) :: R).prod = x.shape.prod := by
    rw [hx]; simp only [List.prod_append, List.prod_cons]; ring
  refine ⟨⟨L ++ (B * E) :: R, fun i => x.get (unravel x.shape (ravel (L ++ (B * E) :: R) i))⟩, ?_, rfl, ?_⟩
  · unfold flattenBeamDim
    simp only [h1, h2, h3, h4, ND.reshape, if_pos hp]
  · intro l b e r hl hb he hr
    simp only
    rw [ravel_merge hl, hx, unravel_ravel (inBox_split hl hr hb he)]

/-- **C89**: unflattening is the inverse. -/
theorem C89_unflatten (x : NDArray α) (L R : List Nat) (B E : Nat) (hx : x.shape = L ++ (B * E) :: R) :
    ∃ y, unflattenBeamDim B E L.length x = some y ∧ y.shape = L ++ B :: E :: R ∧
      ∀ l b e r, InBox L l → b < B → e < E → InBox R r → y.get (l ++ b :: e :: r) = x.get (l ++ (b * E + e) :: r) := by
  have h1 : x.shape[L.length]? = some (B * E) := by rw [hx]; simp
  have h2 : x.shape.take L.length ++ [B, E] ++ x.shape.drop (L.length + 1) = L ++ B :: E :: R := by
    rw [hx, List.take_left' rfl, List.drop_append]
    simp
  have hp : (L ++ B :: E :: R).prod = x.shape.prod := by
    rw [hx]; simp only [List.prod_append, List.prod_cons]; ring
  refine ⟨⟨L ++ B :: E :: R, fun i => x.get (unravel x.shape (ravel (L ++ B :: E :: R) i))⟩, ?_, rfl, ?_⟩
  · unfold unflattenBeamDim
    rw [if_pos h1, h2, ND.reshape, if_pos hp]
  · intro l b e r hl hb he hr
    simp only
    rw [← ravel_merge hl, hx, unravel_ravel (inBox_merge hl hr hb he)]

theorem zip_mod {s i : List Nat} (h : InBox s i) : List.zipWith (· % ·) i s = i := by
  unfold InBox at h
  induction h with
  | nil => rfl
  | cons hab _ ih => simp only [List.zipWith_cons_cons, ih, Nat.mod_eq_of_lt hab]

theorem zip_one (s : List Nat) : List.zipWith (· * ·) s (List.replicate s.length 1) = s := by
  induction s with
  | nil => rfl
  | cons a s ih => simp only [List.length_cons, List.replicate_succ, List.zipWith_cons_cons, ih, Nat.mul_one]

theorem zip_append {f : Nat → Nat → Nat} : ∀ {a c : List Nat} (b d : List Nat), a.length = c.length →
    List.zipWith f (a ++ b) (c ++ d) = List.zipWith f a c ++ List.zipWith f b d
  | [], [], _, _, _ => rfl
  | a :: as, c :: cs, b, d, h => by
    simp only [List.cons_append, List.zipWith_cons_cons]
    rw [zip_append b d (by simpa using h)]

/-- A new beam dimension, all beams alike. -/
theorem addBeamDim_spec (x : NDArray α) (L R : List Nat) (B E : Nat) (hx : x.shape = L ++ B :: R) :
    ∃ y, addBeamDim E L.length x = some y ∧ y.shape = L ++ B :: E :: R ∧
      ∀ l b e r, InBox L l → b < B → InBox R r → y.get (l ++ b :: e :: r) = x.get (l ++ b :: r) := by
  have hins : (L ++ B :: R).insertIdx (L.length + 1) 1 = L ++ B :: 1 :: R := by
    clear hx
    induction L with
    | nil => rfl
    | cons a L ih => simp only [List.cons_append, List.length_cons, List.insertIdx_succ_cons, ih]
  have hlen : L.length + 1 ≤ x.shape.length := by rw [hx]; simp
  refine ⟨tile ⟨L ++ B :: 1 :: R, fun i => x.get (i.eraseIdx (L.length + 1))⟩
    ((List.replicate (L ++ B :: 1 :: R).length 1).set (L.length + 1) E), ?_, ?_, ?_⟩
  · unfold addBeamDim expandDims
    rw [if_pos hlen]
    simp only [hx, hins]
  · have : (List.replicate (L ++ B :: 1 :: R).length 1).set (L.length + 1) E = List.replicate L.length 1 ++ 1 :: E :: List.replicate R.length 1 := by
      have hr : List.replicate (L ++ B :: 1 :: R).length 1 = List.replicate L.length 1 ++ 1 :: 1 :: List.replicate R.length 1 := by
        simp only [List.length_append, List.length_cons, List.replicate_add, List.replicate_succ]
      rw [hr, List.set_append_right _ _ (by simp)]
      simp
    simp only [tile, this]
    rw [zip_append _ _ (by simp), zip_one]
    simp only [List.zipWith_cons_cons, zip_one, Nat.mul_one, Nat.one_mul]
  · intro l b e r hl hb hr
    simp only [tile]
    rw [zip_append _ _ hl.length]
    simp only [List.zipWith_cons_cons, zip_mod hl, zip_mod hr, Nat.mod_one, Nat.mod_eq_of_lt hb]
    rw [List.eraseIdx_append_of_length_le (by rw [hl.length]; omega), hl.length]
    simp

/-- **C89**: expanding puts copies of row `b` at the rows `b * E + e`. -/
theorem C89_expand (x : NDArray α) (L R : List Nat) (B E : Nat) (hx : x.shape = L ++ B :: R) :
    ∃ y, flatBatchBeamExpand E L.length x = some y ∧ y.shape = L ++ (B * E) :: R ∧
      ∀ l b e r, InBox L l → b < B → e < E → InBox R r → y.get (l ++ (b * E + e) :: r) = x.get (l ++ b :: r) := by
  obtain ⟨y, h1, h2, h3⟩ := addBeamDim_spec x L R B E hx
  obtain ⟨z, h4, h5, h6⟩ := C89_flatten y L R B E h2
  refine ⟨z, ?_, h5, fun l b e r hl hb he hr => ?_⟩
  · unfold flatBatchBeamExpand
    simp only [h1, h4]
  · rw [h6 l b e r hl hb he hr, h3 l b e r hl hb hr]

/-! ### Gathering -/

theorem Fl.add_zero (x : Fl K) : Fl.add x (.fin 0) = x := by
  cases x <;> simp [Fl.add]

theorem Fl.zero_add (x : Fl K) : Fl.add (.fin 0) x = x := by
  cases x <;> simp [Fl.add]

theorem Fl.add_nan (x : Fl K) : Fl.add x .nan = .nan := by cases x <;> rfl

theorem Fl.nan_add (x : Fl K) : Fl.add .nan x = .nan := by cases x <;> rfl

theorem sum_succ (f : Nat → Fl K) (n : Nat) :
    Fl.sum ((List.range (n + 1)).map f) = Fl.add (Fl.sum ((List.range n).map f)) (f n) := by
  unfold Fl.sum
  rw [List.range_succ, List.map_append, List.foldl_append]
  rfl

theorem sum_hot (f : Nat → Fl K) (k n : Nat) :
    ((∀ o, o < n → o ≠ k → Finite (f o)) →
      Fl.sum ((List.range n).map fun o => Fl.scale (decide (k = o)) (f o)) = if k < n then f k else .fin 0) ∧
    ((∃ o, o < n ∧ o ≠ k ∧ ¬ Finite (f o)) → Fl.sum ((List.range n).map fun o => Fl.scale (decide (k = o)) (f o)) = .nan) := by
  induction n with
  | zero =>
    refine ⟨fun _ => ?_, fun ⟨o, ho, _⟩ => absurd ho (Nat.not_lt_zero o)⟩
    rw [if_neg (Nat.not_lt_zero k)]
    rfl
  | succ n ih =>
    rw [sum_succ]
    by_cases hk : k = n
    · subst hk
      rw [show decide (k = k) = true by simp]
      refine ⟨fun h => ?_, fun ⟨o, h1, h2, h3⟩ => ?_⟩
      · rw [ih.1 fun o ho hne => h o (by omega) hne, if_neg (lt_irrefl k), if_pos (Nat.lt_succ_self k), Fl.zero_add]
        rfl
      · rw [ih.2 ⟨o, by omega, h2, h3⟩, Fl.nan_add]
    · rw [show decide (k = n) = false by simp [hk]]
      have hbad : ¬ Finite (f n) → Fl.scale false (f n) = .nan := by
        intro h
        cases hf : f n with
        | fin v => exact absurd ⟨v, hf⟩ h
        | inf s => rfl
        | nan => rfl
      refine ⟨fun h => ?_, fun ⟨o, h1, h2, h3⟩ => ?_⟩
      · obtain ⟨v, hv⟩ := h n (Nat.lt_succ_self n) (Ne.symm hk)
        rw [ih.1 fun o ho hne => h o (by omega) hne, hv]
        simp only [Fl.scale, Fl.add_zero]
        by_cases hlt : k < n
        · rw [if_pos hlt, if_pos (by omega)]
        · rw [if_neg hlt, if_neg (by omega)]
      · by_cases ho : o = n
        · rw [hbad (ho ▸ h3), Fl.add_nan]
        · rw [ih.2 ⟨o, by omega, h2, h3⟩, Fl.nan_add]

theorem set_at {l r : List Nat} {b e o : Nat} {n : Nat} (hl : l.length = n) : (l ++ b :: e :: r).set (n + 1) o = l ++ b :: o :: r := by
  subst hl
  rw [List.set_append_right _ _ (by omega)]
  simp

theorem getD_at {l r : List Nat} {b e n : Nat} (hl : l.length = n) :
    (l ++ b :: e :: r).getD n 0 = b ∧ (l ++ b :: e :: r).getD (n + 1) 0 = e := by
  subst hl
  constructor <;> simp [List.getD]

/-- **C89**: gathering by one-hot contraction gives, for beam `e` of row `b`, the slice of the beam `idx b e`, if the values of the other beams
of the row are finite; otherwise NaN. -/
theorem C89_one_hot (x : NDArray (Fl K)) (L R : List Nat) (B O N : Nat) (idx : Nat → Nat → Nat) (hx : x.shape = L ++ B :: O :: R) :
    ∃ y, gatherOneHot L.length B O N idx x = some y ∧ y.shape = L ++ B :: N :: R ∧
      ∀ l b e r, InBox L l → idx b e < O →
        ((∀ o, o < O → o ≠ idx b e → Finite (x.get (l ++ b :: o :: r))) → y.get (l ++ b :: e :: r) = x.get (l ++ b :: idx b e :: r)) ∧
        ((∃ o, o < O ∧ o ≠ idx b e ∧ ¬ Finite (x.get (l ++ b :: o :: r))) → y.get (l ++ b :: e :: r) = .nan) := by
  have h1 : ¬ x.shape.length < L.length + 2 := by rw [hx]; simp
  have h2 : x.shape[L.length]? = some B := by rw [hx]; simp
  have h3 : x.shape[L.length + 1]? = some O := by rw [hx]; simp [List.getElem?_append_right]
  have h4 : x.shape.set (L.length + 1) N = L ++ B :: N :: R := by rw [hx]; exact set_at rfl
  unfold gatherOneHot
  rw [if_neg h1, if_neg (by rw [h2, h3]; simp), h4]
  refine ⟨_, rfl, rfl, fun l b e r hl hi => ?_⟩
  have hg := getD_at (l := l) (r := r) (b := b) (e := e) hl.length
  simp only [hg.1, hg.2, set_at hl.length, oneHot]
  have := sum_hot (fun o => x.get (l ++ b :: o :: r)) (idx b e) O
  rw [if_pos hi] at this
  exact this

/-- **C89**: gathering by indexing gives the slice of the beam `idx b e` in any case. -/
theorem C89_fancy (x : NDArray α) (L R : List Nat) (B O N : Nat) (idx : Nat → Nat → Nat) (hx : x.shape = L ++ B :: O :: R) :
    ∃ y, gatherFancy L.length B N idx x = some y ∧ y.shape = L ++ B :: N :: R ∧
      ∀ l b e r, InBox L l → b < B → e < N → idx b e < O → y.get (l ++ b :: e :: r) = x.get (l ++ b :: idx b e :: r) := by
  have h1 : ¬ x.shape.length < L.length + 2 := by rw [hx]; simp
  have h4 : (x.shape.set L.length B).set (L.length + 1) N = L ++ B :: N :: R := by
    rw [hx, List.set_append_right _ _ (le_refl _), Nat.sub_self, List.set_cons_zero]
    exact set_at rfl
  unfold gatherFancy
  rw [if_neg h1, h4]
  refine ⟨_, rfl, rfl, fun l b e r hl hb he hi => ?_⟩
  have hg := getD_at (l := l) (r := r) (b := b) (e := e) hl.length
  have hs := getD_at (l := L) (r := R) (b := B) (e := O) rfl
  simp only [hg.1, hg.2, hx, hs.1, hs.2]
  have hq : (b * N + e) / N = b := by
    rw [Nat.add_comm, Nat.add_mul_div_right _ _ (by omega), Nat.div_eq_of_lt he, Nat.zero_add]
  rw [hq, Nat.min_eq_left (by omega), Nat.min_eq_left (by omega)]
  congr 1
  rw [← hl.length, List.set_append_right _ _ (le_refl _), Nat.sub_self, List.set_cons_zero]
  exact set_at rfl

/-! ### Caches -/

theorem mapVals_spec {β : Type} (f : NDArray α → Option (NDArray β)) (c : Cache α) :
    ((∃ c', mapVals f c = some c') ↔ ∀ p x, (p, x) ∈ c → (f x).isSome) ∧
    ∀ c', mapVals f c = some c' → PyDict.keys c' = PyDict.keys c ∧ ∀ p, PyDict.get c' p = (PyDict.get c p).bind f := by
  induction c with
  | nil =>
    refine ⟨⟨fun _ p x h => (by cases h), fun _ => ⟨[], rfl⟩⟩, fun c' h => ?_⟩
    cases h
    exact ⟨rfl, fun p => rfl⟩
  | cons a c ih =>
    obtain ⟨k, v⟩ := a
    cases hf : f v with
    | none =>
      refine ⟨⟨fun ⟨c', h⟩ => ?_, fun h => ?_⟩, fun c' h => ?_⟩
      · simp only [mapVals, hf] at h; cases h
      · have := h k v (List.mem_cons_self ..)
        rw [hf] at this; cases this
      · simp only [mapVals, hf] at h; cases h
    | some v' =>
      cases hm : mapVals f c with
      | none =>
        rw [hm] at ih
        refine ⟨⟨fun ⟨c', h⟩ => ?_, fun h => ?_⟩, fun c' h => ?_⟩
        · simp only [mapVals, hf, hm] at h; cases h
        · obtain ⟨c', h'⟩ := ih.1.2 fun p x hp => h p x (List.mem_cons_of_mem _ hp)
          cases h'
        · simp only [mapVals, hf, hm] at h; cases h
      | some r =>
        rw [hm] at ih
        refine ⟨⟨fun _ p x h => ?_, fun h => ⟨(k, v') :: r, by simp only [mapVals, hf, hm]⟩⟩, fun c' h => ?_⟩
        · rcases List.mem_cons.1 h with h | h
          · cases h; rw [hf]; rfl
          · exact ih.1.1 ⟨r, rfl⟩ p x h
        · simp only [mapVals, hf, hm] at h
          cases h
          obtain ⟨h1, h2⟩ := ih.2 r rfl
          refine ⟨by simp only [PyDict.keys, List.map_cons] at h1 ⊢; rw [h1], fun p => ?_⟩
          simp only [PyDict.get]
          split_ifs
          · rw [Option.bind_some, hf]
          · exact h2 p

theorem get_filter (c : Cache α) (q : Path → Bool) (p : Path) :
    PyDict.get (c.filter fun e => q e.1) p = if q p then PyDict.get c p else none := by
  induction c with
  | nil => simp [PyDict.get]
  | cons a c ih =>
    obtain ⟨k, v⟩ := a
    by_cases hk : q k = true
    · rw [List.filter_cons_of_pos (p := fun e : Path × NDArray α => q e.1) hk]
      simp only [PyDict.get]
      by_cases h : k = p
      · subst h; rw [if_pos rfl, if_pos rfl, if_pos hk]
      · rw [if_neg h, if_neg h, ih]
    · rw [List.filter_cons_of_neg (p := fun e : Path × NDArray α => q e.1) hk]
      simp only [PyDict.get]
      by_cases h : k = p
      · subst h; rw [ih, if_neg hk, if_neg hk]
      · rw [if_neg h, ih]

/-- **C89**: `cache_map` applies the function to the entries with a batch dimension and leaves the others as they are. -/
theorem C89_cache_map (f : NDArray α → Option (NDArray α)) (index : Bool) (c : Cache α) (hc : PyDict.WF c) :
    ((∃ c', cacheMap f index c = some c') ↔ ∀ p x, PyDict.get c p = some x → HasBatch index p → (f x).isSome) ∧
    ∀ c', cacheMap f index c = some c' → PyDict.WF c' ∧ ∀ p, (¬ HasBatch index p → PyDict.get c' p = PyDict.get c p) ∧
      (HasBatch index p → PyDict.get c' p = (PyDict.get c p).bind f) := by
  classical
  have hkv : ∃ q : Path → Bool, (∀ p, q p = true ↔ HasBatch index p) ∧
      ((if index then c else c.filter fun e => e.1.getLast? ≠ some "cache_index").filter
        fun e => e.1.getLast? ≠ some "cached_bias" ∧ e.1.getLast? ≠ some "position_embedder_index") = c.filter fun e => q e.1 := by
    refine ⟨fun p => decide (HasBatch index p), fun p => by simp, ?_⟩
    cases index with
    | true =>
      simp only [if_true]
      refine List.filter_congr fun e _ => ?_
      simp [HasBatch]
    | false =>
      simp only [Bool.false_eq_true, if_false, List.filter_filter]
      refine List.filter_congr fun e _ => ?_
      simp [HasBatch, Bool.and_assoc]
  obtain ⟨q, hq, hkv⟩ := hkv
  have hwf : PyDict.WF (c.filter fun e => q e.1) := by
    unfold PyDict.WF PyDict.keys at hc ⊢
    exact (List.filter_sublist.map Prod.fst).nodup hc
  obtain ⟨m1, m2⟩ := mapVals_spec f (c.filter fun e => q e.1)
  have hdef : cacheMap f index c = (match mapVals f (c.filter fun e => q e.1) with
      | none => none
      | some kv => some (PyDict.update c kv)) := by
    unfold cacheMap
    simp only [hkv]
    cases mapVals f (c.filter fun e => q e.1) <;> rfl
  constructor
  · rw [hdef]
    constructor
    · rintro ⟨c', h⟩ p x hp hb
      cases hm : mapVals f (c.filter fun e => q e.1) with
      | none => rw [hm] at h; cases h
      | some kv =>
        refine m1.1 ⟨kv, hm⟩ p x ?_
        rw [← PyDict.get_iff_mem _ hwf, get_filter, if_pos ((hq p).2 hb), hp]
    · intro h
      obtain ⟨kv, hm⟩ := m1.2 fun p x hp => by
        rw [← PyDict.get_iff_mem _ hwf, get_filter] at hp
        split_ifs at hp with hb
        exact h p x hp ((hq p).1 hb)
      exact ⟨_, by rw [hm]⟩
  · intro c' h
    rw [hdef] at h
    cases hm : mapVals f (c.filter fun e => q e.1) with
    | none => rw [hm] at h; cases h
    | some kv =>
      rw [hm] at h
      cases h
      obtain ⟨h1, h2⟩ := m2 kv hm
      have hkvwf : PyDict.WF kv := by unfold PyDict.WF; rw [h1]; exact hwf
      refine ⟨PyDict.wf_update c kv hc, fun p => ⟨fun hb => ?_, fun hb => ?_⟩⟩
      · rw [PyDict.get_update c kv hkvwf, h2, get_filter, if_neg (fun h => hb ((hq p).1 h))]
        rfl
      · rw [PyDict.get_update c kv hkvwf, h2, get_filter, if_pos ((hq p).2 hb)]
        cases hp : PyDict.get c p with
        | none => rfl
        | some x =>
          have : (f x).isSome := m1.1 ⟨kv, hm⟩ p x (by rw [← PyDict.get_iff_mem _ hwf, get_filter, if_pos ((hq p).2 hb), hp])
          obtain ⟨y, hy⟩ := Option.isSome_iff_exists.1 this
          rw [Option.bind_some, hy]
          rfl

/-- **C89**: before the first step every beam has the cache of its batch row. -/
theorem C89_init (beam offset : Nat) (prefilled : Bool) (c : Cache α) (hc : PyDict.WF c)
    (hs : ∀ p x, PyDict.get c p = some x → HasBatch prefilled p → offset < x.shape.length) :
    ∃ c', beamInit beam offset prefilled c = some c' ∧ PyDict.WF c' ∧ ∀ p x, PyDict.get c p = some x →
      (¬ HasBatch prefilled p → PyDict.get c' p = some x) ∧
      ∀ L B R, HasBatch prefilled p → L.length = offset → x.shape = L ++ B :: R → ∃ y, PyDict.get c' p = some y ∧ y.shape = L ++ B :: beam :: R ∧
        ∀ l b e r, InBox L l → b < B → InBox R r → y.get (l ++ b :: e :: r) = x.get (l ++ b :: r) := by
  obtain ⟨h1, h2⟩ := C89_cache_map (addBeamDim beam offset) prefilled c hc
  obtain ⟨c', hc'⟩ := h1.2 fun p x hp hb => by
    have := hs p x hp hb
    unfold addBeamDim expandDims
    rw [if_pos (by omega)]
    rfl
  obtain ⟨w, h3⟩ := h2 c' hc'
  refine ⟨c', hc', w, fun p x hp => ⟨fun hb => ?_, fun L B R hb hL hx => ?_⟩⟩
  · rw [(h3 p).1 hb, hp]
  · subst hL
    obtain ⟨y, y1, y2, y3⟩ := addBeamDim_spec x L R B beam hx
    exact ⟨y, by rw [(h3 p).2 hb, hp, Option.bind_some, y1], y2, y3⟩

/-- **C89**: the model is called with beam `e` of batch row `b` at row `b * beam + e`. -/
theorem C89_flat_cache (offset : Nat) (c : Cache α) (hc : PyDict.WF c)
    (hs : ∀ p x, PyDict.get c p = some x → HasBatch false p → ∃ L B E R, L.length = offset ∧ x.shape = L ++ B :: E :: R) :
    ∃ c', flatCache offset c = some c' ∧ PyDict.WF c' ∧ ∀ p x, PyDict.get c p = some x →
      (¬ HasBatch false p → PyDict.get c' p = some x) ∧
      ∀ L B E R, HasBatch false p → L.length = offset → x.shape = L ++ B :: E :: R → ∃ y, PyDict.get c' p = some y ∧ y.shape = L ++ (B * E) :: R ∧
        ∀ l b e r, InBox L l → b < B → e < E → InBox R r → y.get (l ++ (b * E + e) :: r) = x.get (l ++ b :: e :: r) := by
  obtain ⟨h1, h2⟩ := C89_cache_map (flattenBeamDim offset) false c hc
  obtain ⟨c', hc'⟩ := h1.2 fun p x hp hb => by
    obtain ⟨L, B, E, R, rfl, hx⟩ := hs p x hp hb
    obtain ⟨y, y1, _⟩ := C89_flatten x L R B E hx
    rw [y1]; rfl
  obtain ⟨w, h3⟩ := h2 c' hc'
  refine ⟨c', hc', w, fun p x hp => ⟨fun hb => ?_, fun L B E R hb hL hx => ?_⟩⟩
  · rw [(h3 p).1 hb, hp]
  · subst hL
    obtain ⟨y, y1, y2, y3⟩ := C89_flatten x L R B E hx
    exact ⟨y, by rw [(h3 p).2 hb, hp, Option.bind_some, y1], y2, y3⟩

/-- **C89**: after a step of beam search the cache of beam `e` of row `b` is what the model has made of the cache of the beam that it continues, if
the caches of the beams of this row are finite. -/
theorem C89_step (batch beam offset : Nat) (ho : offset = 0 ∨ offset = 1) (idx : Nat → Nat → Nat)
    (hidx : ∀ b e, b < batch → e < beam → idx b e < beam) (new : Cache (Fl K)) (hc : PyDict.WF new)
    (hs : ∀ p x, PyDict.get new p = some x → HasBatch false p → ∃ L R, L.length = offset ∧ x.shape = L ++ (batch * beam) :: R) :
    ∃ c', nextCache batch beam offset idx new = some c' ∧ PyDict.WF c' ∧ ∀ p x, PyDict.get new p = some x →
      (¬ HasBatch false p → PyDict.get c' p = some x) ∧
      ∀ L R, HasBatch false p → L.length = offset → x.shape = L ++ (batch * beam) :: R → ∃ y, PyDict.get c' p = some y ∧ y.shape = L ++ batch :: beam :: R ∧
        ∀ l b e r, InBox L l → b < batch → e < beam → InBox R r → (∀ o, o < beam → Finite (x.get (l ++ (b * beam + o) :: r))) →
          y.get (l ++ b :: e :: r) = x.get (l ++ (b * beam + idx b e) :: r) := by
  obtain ⟨h1, h2⟩ := C89_cache_map (unflattenBeamDim batch beam offset) false new hc
  obtain ⟨c1, hc1⟩ := h1.2 fun p x hp hb => by
    obtain ⟨L, R, rfl, hx⟩ := hs p x hp hb
    obtain ⟨y, y1, _⟩ := C89_unflatten x L R batch beam hx
    rw [y1]; rfl
  obtain ⟨w1, h3⟩ := h2 c1 hc1
  obtain ⟨h4, h5⟩ := C89_cache_map (gatherOneHot offset batch beam beam idx) false c1 w1
  obtain ⟨c2, hc2⟩ := h4.2 fun p z hz hb => by
    rw [(h3 p).2 hb] at hz
    obtain ⟨x, hx, hxz⟩ := Option.bind_eq_some_iff.1 hz
    obtain ⟨L, R, rfl, hsx⟩ := hs p x hx hb
    obtain ⟨y, y1, y2, _⟩ := C89_unflatten x L R batch beam hsx
    have hyz : y = z := by rw [y1] at hxz; exact Option.some.inj hxz
    obtain ⟨g, g1, _⟩ := C89_one_hot z L R batch beam beam idx (hyz ▸ y2)
    rw [g1]; rfl
  obtain ⟨w2, h6⟩ := h5 c2 hc2
  refine ⟨c2, ?_, w2, fun p x hp => ⟨fun hb => ?_, fun L R hb hL hx => ?_⟩⟩
  · unfold nextCache cacheGatherBeams
    rw [hc1]
    simp only
    rw [if_neg (by omega), if_pos trivial, hc2]
  · rw [(h6 p).1 hb, (h3 p).1 hb, hp]
  · subst hL
    obtain ⟨y, y1, y2, y3⟩ := C89_unflatten x L R batch beam hx
    obtain ⟨g, g1, g2, g3⟩ := C89_one_hot y L R batch beam beam idx y2
    refine ⟨g, by rw [(h6 p).2 hb, (h3 p).2 hb, hp, Option.bind_some, y1, Option.bind_some, g1], g2, fun l b e r hl hb he hr hfin => ?_⟩
    rw [(g3 l b e r hl (hidx b e hb he)).1 fun o ho _ => by rw [y3 l b o r hl hb ho hr]; exact hfin o ho,
      y3 l b _ r hl hb (hidx b e hb he) hr]

/-- **C89**: with several samples per example, the rows `b * num + e` of the inputs, of the cache and of the initial index that are decoded are
those of example `b`, and the results of these rows are the results of example `b`. -/
theorem C89_samples (num offset batch len : Nat) (hn : 1 < num) (prefilled : Bool) (inputs initial : NDArray α) (c : Cache α) (hc : PyDict.WF c)
    (hi : inputs.shape = [batch, len]) (h0 : initial.shape = [batch])
    (hs : ∀ p x, PyDict.get c p = some x → HasBatch prefilled p → ∃ L R, L.length = offset ∧ x.shape = L ++ batch :: R) :
    ∃ i c' n, expandAll num offset prefilled inputs c initial = some (i, c', n) ∧ i.shape = [batch * num, len] ∧
      (∀ b e t, b < batch → e < num → t < len → i.get [b * num + e, t] = inputs.get [b, t]) ∧
      (prefilled = true → n.shape = [batch * num] ∧ ∀ b e, b < batch → e < num → n.get [b * num + e] = initial.get [b]) ∧
      (∀ p x, PyDict.get c p = some x → (¬ HasBatch prefilled p → PyDict.get c' p = some x) ∧
        ∀ L R, HasBatch prefilled p → L.length = offset → x.shape = L ++ batch :: R → ∃ y, PyDict.get c' p = some y ∧ y.shape = L ++ (batch * num) :: R ∧
          ∀ l b e r, InBox L l → b < batch → e < num → InBox R r → y.get (l ++ (b * num + e) :: r) = x.get (l ++ b :: r)) ∧
      ∀ (out : NDArray α) (R : List Nat), out.shape = (batch * num) :: R → ∃ res, unflattenBeamDim batch num 0 out = some res ∧
        res.shape = batch :: num :: R ∧ ∀ b e r, b < batch → e < num → InBox R r → res.get (b :: e :: r) = out.get ((b * num + e) :: r) := by
  obtain ⟨i, i1, i2, i3⟩ := C89_expand inputs [] [len] batch num hi
  obtain ⟨n, n1, n2, n3⟩ := C89_expand initial [] [] batch num h0
  obtain ⟨h1, h2⟩ := C89_cache_map (flatBatchBeamExpand num offset) prefilled c hc
  obtain ⟨c', hc'⟩ := h1.2 fun p x hp hb => by
    obtain ⟨L, R, rfl, hx⟩ := hs p x hp hb
    obtain ⟨y, y1, _⟩ := C89_expand x L R batch num hx
    rw [y1]; rfl
  obtain ⟨w, h3⟩ := h2 c' hc'
  have hnil : InBox [] [] := List.Forall₂.nil
  refine ⟨i, c', if prefilled then n else initial, ?_, i2, fun b e t hb he ht => i3 [] b e [t] hnil hb he (inBox_cons.2 ⟨ht, hnil⟩), fun hp => ?_,
    fun p x hp => ⟨fun hb => ?_, fun L R hb hL hx => ?_⟩, fun out R ho => ?_⟩
  · unfold expandAll
    rw [if_pos hn, show flatBatchBeamExpand num 0 inputs = some i from i1, hc', show flatBatchBeamExpand num 0 initial = some n from n1]
    cases prefilled <;> rfl
  · rw [hp]
    exact ⟨n2, fun b e hb he => n3 [] b e [] hnil hb he hnil⟩
  · rw [(h3 p).1 hb, hp]
  · subst hL
    obtain ⟨y, y1, y2, y3⟩ := C89_expand x L R batch num hx
    exact ⟨y, by rw [(h3 p).2 hb, hp, Option.bind_some, y1], y2, y3⟩
  · obtain ⟨res, r1, r2, r3⟩ := C89_unflatten out [] R batch num ho
    exact ⟨res, r1, r2, fun b e r hb he hr => r3 [] b e r hnil hb he hr⟩

/-! ### Witnesses -/

/-- A cache of two rows of three beams, scanned over two layers, as the model returns it. -/
def exCache : Cache (Fl Int) :=
  [(["decoder", "cached_key"], ⟨[2, 6, 2], fun i => .fin (i.getD 0 0 * 100 + i.getD 1 0 * 10 + i.getD 2 0)⟩),
   (["decoder", "cache_index"], ⟨[], fun _ => .fin 7⟩)]

/-- `C89_step` applies. -/
example : ∃ c', nextCache 2 3 1 (fun _ e => 2 - e) exCache = some c' ∧ PyDict.get c' ["decoder", "cache_index"] = PyDict.get exCache ["decoder", "cache_index"] ∧
    ∃ y, PyDict.get c' ["decoder", "cached_key"] = some y ∧ y.shape = [2, 2, 3, 2] ∧ y.get [1, 1, 0, 1] = .fin 151 := by
  obtain ⟨c', h1, _, h2⟩ := C89_step 2 3 1 (Or.inr rfl) (fun _ e => 2 - e) (fun b e _ _ => by omega) exCache (show (PyDict.keys exCache).Nodup by decide) (by
    intro p x hp hb
    simp only [exCache, PyDict.get] at hp
    split_ifs at hp with h3 h4
    · cases hp; exact ⟨[2], [2], rfl, rfl⟩
    · subst h4
      exact absurd rfl (hb.2.2 rfl))
  refine ⟨c', h1, ?_, ?_⟩
  · exact (h2 _ _ rfl).1 (fun hb => absurd rfl (hb.2.2 rfl))
  · obtain ⟨y, y1, y2, y3⟩ := (h2 ["decoder", "cached_key"] _ rfl).2 [2] [2] ⟨by decide, by decide, fun _ => by decide⟩ rfl rfl
    have hb1 : InBox [2] [1] := inBox_cons.2 ⟨by decide, List.Forall₂.nil⟩
    refine ⟨y, y1, y2, ?_⟩
    rw [show ([1, 1, 0, 1] : List Nat) = [1] ++ 1 :: 0 :: [1] from rfl, y3 [1] 1 0 [1] hb1 (by decide) (by decide) hb1 (fun o _ => ⟨_, rfl⟩)]
    decide

/-- **C89, finding**: a NaN in the cache of one beam gets into the caches of all beams of the row; indexing would keep them apart. -/
theorem C89_nan_spreads : ∃ (x : NDArray (Fl Int)) (y z : NDArray (Fl Int)), gatherBeams x (fun _ _ => 0) 1 2 2 true = some y ∧
    gatherBeams x (fun _ _ => 0) 1 2 2 false = some z ∧ x.get [0, 0] = .fin 5 ∧ x.get [0, 1] = .nan ∧
    (y.get [0, 0] = .nan ∧ y.get [0, 1] = .nan) ∧ z.get [0, 0] = .fin 5 ∧ z.get [0, 1] = .fin 5 :=
  ⟨⟨[1, 2], fun i => if i = [0, 1] then .nan else .fin 5⟩, _, _, rfl, rfl, by decide, by decide, ⟨by decide, by decide⟩, by decide, by decide⟩

end Verif.BeamDims
