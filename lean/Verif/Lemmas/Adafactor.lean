import Verif.Spec.Adafactor
import Verif.Lemmas.NDArray
namespace Verif.Adafactor
open Verif.ND Spec

variable {V : Type}

theorem mem_box (s : List Nat) : ∀ i, i ∈ box s ↔ InBox s i := by
  induction s with
  | nil => intro i; simp [box, InBox]
  | cons n s ih =>
    intro i
    simp only [box, List.mem_flatMap, List.mem_range, List.mem_map, ih]
    constructor
    · rintro ⟨x, hx, j, hj, rfl⟩; exact List.Forall₂.cons hx hj
    · intro h
      cases h with
      | cons hx hj => exact ⟨_, hx, _, hj, rfl⟩

/-- Positions kept by `del`. -/
def kept (dims : List Nat) (n : Nat) : List Nat := (List.range n).filter fun k => !dims.contains k

theorem del_eq (dims l : List Nat) : del dims l = (kept dims l.length).map fun k => l.getD k 0 := rfl

theorem mem_kept (dims : List Nat) (n k : Nat) : k ∈ kept dims n ↔ k < n ∧ k ∉ dims := by
  unfold kept
  simp [List.mem_filter]

theorem del_length (dims l : List Nat) : (del dims l).length = (kept dims l.length).length := by
  rw [del_eq]; simp

theorem del_inBox {dims s i : List Nat} (h : InBox s i) : InBox (del dims s) (del dims i) := by
  rw [del_eq, del_eq, h.length]
  unfold InBox
  rw [List.forall₂_map_left_iff, List.forall₂_map_right_iff, List.forall₂_same]
  intro k hk
  rw [mem_kept] at hk
  exact (inBox_iff.mp h).2 k hk.1

/-- Deleting the same dims gives the same vector exactly if the other coordinates agree. -/
theorem del_eq_iff (dims i j : List Nat) (h : i.length = j.length) :
    del dims i = del dims j ↔ ∀ k, k < i.length → k ∉ dims → i.getD k 0 = j.getD k 0 := by
  rw [del_eq, del_eq, h]
  constructor
  · intro he k hk hd
    exact List.map_inj_left.mp he k ((mem_kept _ _ _).2 ⟨hk, hd⟩)
  · intro he
    apply List.map_congr_left
    intro k hk
    rw [mem_kept] at hk
    exact he k hk.1 hk.2

theorem mem_slice (s dims i i' : List Nat) :
    i' ∈ slice s dims i ↔ InBox s i' ∧ ∀ k, k < s.length → k ∉ dims → i'.getD k 0 = i.getD k 0 := by
  unfold slice
  rw [List.mem_filter, mem_box]
  simp only [List.all_eq_true, List.mem_range, Bool.or_eq_true, List.contains_iff_mem, beq_iff_eq]
  constructor
  · rintro ⟨h1, h2⟩; exact ⟨h1, fun k hk hd => (h2 k hk).resolve_left hd⟩
  · rintro ⟨h1, h2⟩
    refine ⟨h1, fun k hk => ?_⟩
    by_cases hd : k ∈ dims
    · exact Or.inl hd
    · exact Or.inr (h2 k hk hd)

theorem filter_del (s dims i : List Nat) (hi : i.length = s.length) :
    ((box s).filter fun i' => decide (del dims i' = del dims i)) = slice s dims i := by
  unfold slice
  apply List.filter_congr
  intro i' hi'
  have hl := ((mem_box s i').1 hi').length
  rw [Bool.eq_iff_iff, decide_eq_true_eq, del_eq_iff dims i' i (hl.trans hi.symm), hl]
  simp only [List.all_eq_true, List.mem_range, Bool.or_eq_true, List.contains_iff_mem, beq_iff_eq]
  constructor
  · intro h k hk
    by_cases hd : k ∈ dims
    · exact Or.inl hd
    · exact Or.inr (h k hk hd)
  · intro h k hk hd
    exact (h k hk).resolve_left hd

/-! ### Broadcasting -/

theorem bshapeR_left : ∀ a b : List Nat, List.Forall₂ (fun x y => y = x ∨ y = 1) a b → bshapeR a b = some a := by
  intro a b h
  induction h with
  | nil => rfl
  | @cons x y a b hxy _ ih =>
    simp only [bshapeR, ih]
    rcases hxy with rfl | rfl
    · simp
    · split_ifs with h1 h2
      · rfl
      · rfl
      · exact absurd rfl h2

theorem bshapeR_right : ∀ a b : List Nat, List.Forall₂ (fun x y => y = x ∨ y = 1) a b → bshapeR b a = some a := by
  intro a b h
  induction h with
  | nil => rfl
  | @cons x y a b hxy _ ih =>
    simp only [bshapeR, ih]
    rcases hxy with rfl | rfl
    · simp
    · by_cases h1 : (1 : Nat) = x
      · rw [if_pos h1, h1]
      · simp [h1]

theorem bshape_left {a b : List Nat} (h : List.Forall₂ (fun x y => y = x ∨ y = 1) a b) : bshape a b = some a := by
  unfold bshape
  rw [bshapeR_left _ _ (List.forall₂_reverse_iff.mpr h)]
  simp

theorem bshape_right {a b : List Nat} (h : List.Forall₂ (fun x y => y = x ∨ y = 1) a b) : bshape b a = some a := by
  unfold bshape
  rw [bshapeR_right _ _ (List.forall₂_reverse_iff.mpr h)]
  simp

theorem bshape_nil_left (s : List Nat) : bshape [] s = some s := by
  unfold bshape
  simp [bshapeR]

theorem bshape_nil_right (s : List Nat) : bshape s [] = some s := by
  unfold bshape
  have : ∀ l : List Nat, bshapeR l [] = some l := by intro l; cases l <;> rfl
  simp [this]

theorem bidx_self {s i : List Nat} (h : InBox s i) : bidx s i = i := by
  unfold bidx
  rw [h.length, Nat.sub_self, List.drop_zero]
  induction h with
  | nil => rfl
  | @cons x d i s hx _ ih =>
    simp only [List.zipWith_cons_cons, ih]
    congr 1
    split_ifs with h1
    · omega
    · rfl

/-- The shape with ones in the given dimensions. -/
def kd (dims s : List Nat) : List Nat := (List.range s.length).map fun k => if dims.contains k then 1 else s.getD k 0

theorem kd_length (dims s : List Nat) : (kd dims s).length = s.length := by simp [kd]

theorem kd_rel (dims s : List Nat) : List.Forall₂ (fun x y => y = x ∨ y = 1) s (kd dims s) := by
  rw [List.forall₂_iff_get]
  refine ⟨(kd_length dims s).symm, ?_⟩
  intro k h1 h2
  simp only [kd, List.get_eq_getElem, List.getElem_map, List.getElem_range, getD_lt s 0 h1]
  split_ifs
  · exact Or.inr rfl
  · exact Or.inl rfl

theorem bidx_kd {dims s i : List Nat} (h : InBox s i) : del dims (bidx (kd dims s) i) = del dims i ∧ (bidx (kd dims s) i).length = i.length := by
  have hl : (bidx (kd dims s) i).length = i.length := by
    unfold bidx
    rw [kd_length, h.length, Nat.sub_self, List.drop_zero, List.length_zipWith, kd_length, h.length]
    simp
  refine ⟨?_, hl⟩
  rw [del_eq_iff _ _ _ hl]
  intro k hk hd
  have hks : k < s.length := by rw [hl, h.length] at hk; exact hk
  have hki : k < i.length := by rw [hl] at hk; exact hk
  rw [getD_lt _ 0 hk, getD_lt _ 0 hki]
  unfold bidx
  simp only [kd_length, h.length, Nat.sub_self, List.drop_zero, List.getElem_zipWith]
  simp only [kd, List.getElem_map, List.getElem_range, getD_lt s 0 hks]
  have hb := (inBox_iff.mp h).2 k hks
  rw [getD_lt _ 0 hki, getD_lt _ 0 hks] at hb
  have hd' : dims.contains k = false := by simpa using hd
  simp only [hd', Bool.false_eq_true, if_false]
  split_ifs with h1
  · omega
  · rfl

/-- An array of shape `s` with the given elements. -/
def Is (a : NDArray V) (s : List Nat) (f : List Nat → V) : Prop := a.shape = s ∧ ∀ i, InBox s i → a.get i = f i

/-- An array that is read as `f` when broadcast to shape `s`. -/
def Reads (a : NDArray V) (s : List Nat) (f : List Nat → V) : Prop :=
  bshape a.shape s = some s ∧ bshape s a.shape = some s ∧ ∀ i, InBox s i → a.get (bidx a.shape i) = f i

theorem Is.reads {a : NDArray V} {s : List Nat} {f : List Nat → V} (h : Is a s f) : Reads a s f := by
  obtain ⟨rfl, h2⟩ := h
  have hr : List.Forall₂ (fun x y => y = x ∨ y = 1) a.shape a.shape := by
    rw [List.forall₂_same]; intro x _; exact Or.inl rfl
  exact ⟨bshape_left hr, bshape_left hr, fun i hi => by rw [bidx_self hi]; exact h2 i hi⟩

theorem Is.un {a : NDArray V} {s : List Nat} {f : List Nat → V} (h : Is a s f) (op : V → V) : Is (un op a) s (fun i => op (f i)) :=
  ⟨h.1, fun i hi => by simp only [Adafactor.un]; rw [h.2 i hi]⟩

theorem Reads.un {a : NDArray V} {s : List Nat} {f : List Nat → V} (h : Reads a s f) (op : V → V) : Reads (un op a) s (fun i => op (f i)) :=
  ⟨h.1, h.2.1, fun i hi => by simp only [Adafactor.un]; rw [h.2.2 i hi]⟩

theorem Is.congr {a : NDArray V} {s : List Nat} {f g : List Nat → V} (h : Is a s f) (he : ∀ i, InBox s i → f i = g i) : Is a s g :=
  ⟨h.1, fun i hi => (h.2 i hi).trans (he i hi)⟩

theorem Reads.congr {a : NDArray V} {s : List Nat} {f g : List Nat → V} (h : Reads a s f) (he : ∀ i, InBox s i → f i = g i) : Reads a s g :=
  ⟨h.1, h.2.1, fun i hi => (h.2.2 i hi).trans (he i hi)⟩

theorem bin_left {a b : NDArray V} {s : List Nat} {f g : List Nat → V} (op : V → V → V) (ha : Is a s f) (hb : Reads b s g) :
    ∃ c, bin op a b = .ok c ∧ Is c s (fun i => op (f i) (g i)) := by
  have h := ha.reads
  refine ⟨⟨s, fun i => op (a.get (bidx s i)) (b.get (bidx b.shape i))⟩, by simp only [bin, ha.1, hb.2.1], rfl, ?_⟩
  intro i hi
  have h2 := h.2.2 i hi
  rw [ha.1] at h2
  dsimp only
  rw [h2, hb.2.2 i hi]

theorem bin_right {a b : NDArray V} {s : List Nat} {f g : List Nat → V} (op : V → V → V) (ha : Reads a s f) (hb : Is b s g) :
    ∃ c, bin op a b = .ok c ∧ Is c s (fun i => op (f i) (g i)) := by
  have h := hb.reads
  refine ⟨⟨s, fun i => op (a.get (bidx a.shape i)) (b.get (bidx s i))⟩, by simp only [bin, hb.1, ha.1], rfl, ?_⟩
  intro i hi
  have h2 := h.2.2 i hi
  rw [hb.1] at h2
  dsimp only
  rw [h2, ha.2.2 i hi]

theorem is_self (a : NDArray V) : Is a a.shape a.get := ⟨rfl, fun _ _ => rfl⟩

theorem reads_scalar (x : V) (s : List Nat) : Reads (⟨[], fun _ => x⟩ : NDArray V) s (fun _ => x) :=
  ⟨bshape_nil_left s, bshape_nil_right s, fun _ _ => rfl⟩

theorem Is.map_box {a : NDArray V} {s : List Nat} {f : List Nat → V} (h : Is a s f) (l : List (List Nat)) (hl : ∀ i ∈ l, InBox s i) :
    l.map a.get = l.map f :=
  List.map_congr_left fun i hi => h.2 i (hl i hi)

theorem meanKeep_reads {a : NDArray V} {s : List Nat} {f : List Nat → V} (mean : List V → V) (dims : List Nat) (h : Is a s f) :
    Reads (meanKeep mean dims a) s (fun i => mean ((slice s dims i).map f)) := by
  have hs : (meanKeep mean dims a).shape = kd dims s := by unfold meanKeep kd; rw [h.1]
  refine ⟨by rw [hs]; exact bshape_right (kd_rel dims s), by rw [hs]; exact bshape_left (kd_rel dims s), ?_⟩
  intro i hi
  rw [hs]
  simp only [meanKeep, h.1, (bidx_kd hi).1]
  rw [filter_del s dims i hi.length]
  congr 1
  exact h.map_box _ (fun i' hi' => ((mem_slice s dims i i').1 hi').1)

theorem meanAxes_get {a : NDArray V} {s : List Nat} {f : List Nat → V} (mean : List V → V) (dims : List Nat) (h : Is a s f) :
    (meanAxes mean dims a).shape = del dims s ∧ ∀ i, InBox s i → (meanAxes mean dims a).get (del dims i) = mean ((slice s dims i).map f) := by
  refine ⟨by simp only [meanAxes, h.1], ?_⟩
  intro i hi
  simp only [meanAxes, h.1]
  rw [filter_del s dims i hi.length]
  congr 1
  exact h.map_box _ (fun i' hi' => ((mem_slice s dims i i').1 hi').1)

/-! ### Deletion by masks -/

/-- Which positions are in `dims`, from position `p` on. -/
def mask (dims : List Nat) (p n : Nat) : List Bool := (List.range' p n).map fun k => dims.contains k

theorem mask_succ (dims : List Nat) (p n : Nat) : mask dims p (n + 1) = dims.contains p :: mask dims (p + 1) n := by
  simp [mask, List.range'_succ]

/-- Keep the entries whose mask is false. -/
def delM {β : Type} : List Bool → List β → List β
  | b :: m, x :: l => if b then delM m l else x :: delM m l
  | _, _ => []

theorem del_mask_aux (dims : List Nat) : ∀ (l : List Nat) (p : Nat),
    ((List.range' p l.length).filter fun k => !dims.contains k).map (fun k => l.getD (k - p) 0) = delM (mask dims p l.length) l := by
  intro l
  induction l with
  | nil => intro p; rfl
  | cons x l ih =>
    intro p
    have hrest : ((List.range' (p + 1) l.length).filter fun k => !dims.contains k).map (fun k => (x :: l).getD (k - p) 0) =
        delM (mask dims (p + 1) l.length) l := by
      rw [← ih (p + 1)]
      apply List.map_congr_left
      intro k hk
      have := (List.mem_range'_1.mp (List.mem_filter.mp hk).1).1
      rw [show k - p = (k - (p + 1)) + 1 by omega]
      rfl
    rw [List.length_cons, mask_succ, List.range'_succ, List.filter_cons]
    cases hc : dims.contains p with
    | true => simpa [delM, hc] using hrest
    | false => simpa [delM, hc] using hrest

theorem del_mask (dims l : List Nat) : del dims l = delM (mask dims 0 l.length) l := by
  rw [← del_mask_aux dims l 0]
  unfold del
  rw [List.range_eq_range']
  simp

theorem kd_mask_aux (dims : List Nat) : ∀ (l : List Nat) (p : Nat),
    (List.range' p l.length).map (fun k => if dims.contains k then 1 else l.getD (k - p) 0) =
      expandShape dims p l.length (delM (mask dims p l.length) l) := by
  intro l
  induction l with
  | nil => intro p; rfl
  | cons x l ih =>
    intro p
    have hrest : (List.range' (p + 1) l.length).map (fun k => if dims.contains k then 1 else (x :: l).getD (k - p) 0) =
        expandShape dims (p + 1) l.length (delM (mask dims (p + 1) l.length) l) := by
      rw [← ih (p + 1)]
      apply List.map_congr_left
      intro k hk
      have := (List.mem_range'_1.mp hk).1
      rw [show k - p = (k - (p + 1)) + 1 by omega]
      rfl
    rw [List.length_cons, mask_succ, List.range'_succ, List.map_cons, hrest]
    cases hc : dims.contains p with
    | true => simp [delM, expandShape]
              simp only [List.contains_iff_mem] at hc
              simp [hc]
    | false =>
      have hc' : p ∉ dims := by simpa using hc
      simp [delM, expandShape, hc']

theorem expandShape_del (dims s : List Nat) : expandShape dims 0 s.length (del dims s) = kd dims s := by
  rw [del_mask, ← kd_mask_aux dims s 0]
  unfold kd
  rw [List.range_eq_range']
  simp

theorem kept_length (dims : List Nat) (n : Nat) (hn : dims.Nodup) : (kept dims n).length + (dims.filter fun e => e < n).length = n := by
  have h1 : (kept dims n).length + ((List.range n).filter fun k => dims.contains k).length = n := by
    have := List.length_eq_length_filter_add (l := List.range n) (fun k => dims.contains k)
    rw [List.length_range] at this
    unfold kept
    omega
  have h2 : ((List.range n).filter fun k => dims.contains k).Perm (dims.filter fun e => e < n) := by
    rw [List.perm_ext_iff_of_nodup (List.nodup_range.filter _) (hn.filter _)]
    intro a
    simp only [List.mem_filter, List.mem_range, List.contains_iff_mem, decide_eq_true_eq]
    tauto
  rw [h2.length_eq] at h1
  exact h1

theorem expand_reads {a : NDArray V} {dims s : List Nat} {f : List Nat → V} (hn : dims.Nodup) (hlt : ∀ d ∈ dims, d < s.length)
    (ha : a.shape = del dims s) (hf : ∀ i, InBox s i → a.get (del dims i) = f i) : Reads (expand dims a) s f := by
  have hl : (del dims s).length + dims.length = s.length := by
    rw [del_length]
    have h := kept_length dims s.length hn
    rw [List.filter_eq_self.mpr (by intro d hd; simpa using hlt d hd)] at h
    exact h
  have hs : (expand dims a).shape = kd dims s := by
    simp only [expand, ha, hl, expandShape_del]
  refine ⟨by rw [hs]; exact bshape_right (kd_rel dims s), by rw [hs]; exact bshape_left (kd_rel dims s), ?_⟩
  intro i hi
  rw [hs]
  simp only [expand, (bidx_kd hi).1]
  exact hf i hi

/-! ### Slices of the row accumulator -/

def agreeM : List Bool → List Nat → List Nat → Bool
  | b :: m, x :: i, y :: j => (b || x == y) && agreeM m i j
  | _, _, _ => true

def sliceM : List Nat → List Bool → List Nat → List (List Nat)
  | n :: s, b :: m, x :: i =>
    if b then (List.range n).flatMap fun y => (sliceM s m i).map fun j => y :: j
    else (sliceM s m i).map fun j => x :: j
  | _, _, _ => [[]]

theorem range_pick {β : Type} (L : List β) (x : Nat) : ∀ n, ((List.range n).flatMap fun y => if y = x then L else []) = if x < n then L else [] := by
  intro n
  induction n with
  | zero => simp
  | succ n ih =>
    rw [List.range_succ, List.flatMap_append, ih]
    simp only [List.flatMap_cons, List.flatMap_nil, List.append_nil]
    by_cases h1 : x < n
    · have h2 : n ≠ x := by omega
      have h3 : x < n + 1 := by omega
      simp [h1, h2, h3]
    · by_cases h2 : n = x
      · have h3 : x < n + 1 := by omega
        simp [h1, h2]
      · have h3 : ¬ x < n + 1 := by omega
        simp [h1, h2, h3]

theorem filter_sliceM : ∀ (s : List Nat) (m : List Bool) (i : List Nat), m.length = s.length → InBox s i →
    (box s).filter (fun j => agreeM m j i) = sliceM s m i := by
  intro s
  induction s with
  | nil => intro m i hm hi; cases hi; cases m with
    | nil => rfl
    | cons => simp at hm
  | cons n s ih =>
    intro m i hm hi
    cases hi with
    | @cons x _ i _ hx hi =>
      cases m with
      | nil => simp at hm
      | cons b m =>
        have hm' : m.length = s.length := by simpa using hm
        simp only [box, sliceM, List.filter_flatMap, List.filter_map]
        have hin : ∀ y, ((box s).filter ((fun j => agreeM (b :: m) j (x :: i)) ∘ fun j => y :: j)) =
            if b = true ∨ y = x then sliceM s m i else [] := by
          intro y
          rw [← ih m i hm' hi]
          by_cases hc : b = true ∨ y = x
          · rw [if_pos hc]
            apply List.filter_congr
            intro j _
            have : (b || y == x) = true := by
              rcases hc with rfl | rfl <;> simp
            simp only [Function.comp_def, agreeM, this, Bool.true_and]
          · rw [if_neg hc]
            rw [List.filter_eq_nil_iff]
            intro j _
            have : (b || y == x) = false := by
              push Not at hc
              simp only [Bool.or_eq_false_iff, beq_eq_false_iff_ne]
              exact ⟨by simpa using hc.1, hc.2⟩
            simp only [Function.comp_def, agreeM, this, Bool.false_and]
            simp
        simp only [hin]
        cases b with
        | true => simp
        | false =>
          simp only [Bool.false_eq_true, false_or, if_false]
          have : ((List.range n).flatMap fun y => (if y = x then sliceM s m i else []).map fun j => y :: j) =
              (List.range n).flatMap fun y => if y = x then (sliceM s m i).map (fun j => x :: j) else [] := by
            congr 1
            funext y
            split_ifs with h
            · rw [h]
            · rfl
          rw [this, range_pick, if_pos hx]

theorem agreeM_mask (dims : List Nat) : ∀ (i j : List Nat) (p : Nat), i.length = j.length →
    (agreeM (mask dims p i.length) i j = true ↔ ∀ k, k < i.length → p + k ∉ dims → i.getD k 0 = j.getD k 0) := by
  intro i
  induction i with
  | nil => intro j p h; simp [agreeM, mask]
  | cons x i ih =>
    intro j p h
    cases j with
    | nil => simp at h
    | cons y j =>
      have h' : i.length = j.length := by simpa using h
      rw [List.length_cons, mask_succ]
      simp only [agreeM, Bool.and_eq_true, Bool.or_eq_true, List.contains_iff_mem, beq_iff_eq, ih j (p + 1) h']
      constructor
      · rintro ⟨h1, h2⟩ k hk hd
        cases k with
        | zero => simpa using h1.resolve_left (by simpa using hd)
        | succ k =>
          simp only [List.getD_cons_succ]
          exact h2 k (by omega) (by rw [show p + 1 + k = p + (k + 1) by omega]; exact hd)
      · intro h2
        refine ⟨?_, ?_⟩
        · by_cases hd : p ∈ dims
          · exact Or.inl hd
          · right
            simpa using h2 0 (by omega) (by simpa using hd)
        · intro k hk hd
          have := h2 (k + 1) (by omega) (by rw [show p + (k + 1) = p + 1 + k by omega]; exact hd)
          simpa using this

theorem slice_sliceM (s dims i : List Nat) (hi : InBox s i) : slice s dims i = sliceM s (mask dims 0 s.length) i := by
  rw [← filter_sliceM s _ i (by simp [mask]) hi]
  unfold slice
  apply List.filter_congr
  intro j hj
  have hjl := ((mem_box s j).1 hj).length
  rw [Bool.eq_iff_iff, ← hjl, agreeM_mask dims j i 0 (hjl.trans hi.length.symm)]
  simp only [List.all_eq_true, List.mem_range, Bool.or_eq_true, List.contains_iff_mem, beq_iff_eq, Nat.zero_add]
  constructor
  · intro h k hk hd; exact (h k hk).resolve_left hd
  · intro h k hk
    by_cases hd : k ∈ dims
    · exact Or.inl hd
    · exact Or.inr (h k hk hd)

theorem sliceM_length : ∀ (s : List Nat) (m : List Bool) (i : List Nat), m.length = s.length → i.length = s.length →
    ∀ j ∈ sliceM s m i, j.length = s.length := by
  intro s
  induction s with
  | nil => intro m i hm hi j hj; cases m <;> cases i <;> simp_all [sliceM]
  | cons n s ih =>
    intro m i hm hi j hj
    cases m with
    | nil => simp at hm
    | cons b m =>
      cases i with
      | nil => simp at hi
      | cons x i =>
        simp only [sliceM] at hj
        split_ifs at hj
        · obtain ⟨y, _, hj⟩ := List.mem_flatMap.mp hj
          obtain ⟨j', hj', rfl⟩ := List.mem_map.mp hj
          simp [ih m i (by simpa using hm) (by simpa using hi) j' hj']
        · obtain ⟨j', hj', rfl⟩ := List.mem_map.mp hj
          simp [ih m i (by simpa using hm) (by simpa using hi) j' hj']

theorem sliceM_del : ∀ (s : List Nat) (m0 m1 : List Bool) (i : List Nat), m0.length = s.length → m1.length = s.length →
    i.length = s.length → (∀ e ∈ m0.zip m1, ¬ (e.1 = true ∧ e.2 = true)) →
    (sliceM s m1 i).map (delM m0) = sliceM (delM m0 s) (delM m0 m1) (delM m0 i) := by
  intro s
  induction s with
  | nil =>
    intro m0 m1 i h0 h1 hi _
    cases m0 <;> cases m1 <;> cases i <;> simp_all [sliceM, delM]
  | cons n s ih =>
    intro m0 m1 i h0 h1 hi hd
    cases m0 with
    | nil => simp at h0
    | cons b0 m0 =>
      cases m1 with
      | nil => simp at h1
      | cons b1 m1 =>
        cases i with
        | nil => simp at hi
        | cons x i =>
          have ih' := ih m0 m1 i (by simpa using h0) (by simpa using h1) (by simpa using hi)
            (fun e he => hd e (by simp only [List.zip_cons_cons]; exact List.mem_cons_of_mem _ he))
          have hnot := hd (b0, b1) (by simp)
          have hone : ∀ (c : Bool) (y : Nat) (L : List (List Nat)), (L.map (fun j => y :: j)).map (delM (c :: m0)) =
              if c then L.map (delM m0) else (L.map (delM m0)).map (fun j => y :: j) := by
            intro c y L
            rw [List.map_map]
            cases c
            · simp only [Bool.false_eq_true, if_false, List.map_map]
              apply List.map_congr_left
              intro j _
              simp [delM]
            · simp only [if_true]
              apply List.map_congr_left
              intro j _
              simp [delM]
          cases b0 with
          | true =>
            have hb1 : b1 = false := by cases b1; rfl; exact absurd ⟨rfl, rfl⟩ hnot
            subst hb1
            simp only [sliceM, Bool.false_eq_true, if_false, hone, if_true, ih', delM]
          | false =>
            cases b1 with
            | false => simp only [sliceM, Bool.false_eq_true, if_false, hone, ih', delM]
            | true =>
              simp only [sliceM, if_true, List.map_flatMap, hone, Bool.false_eq_true, if_false, ih', delM]

theorem kept_getElem (dims : List Nat) (n k : Nat) (hn : dims.Nodup) (hk : k < n) (hd : k ∉ dims) :
    (kept dims n)[k - (dims.filter fun e => e < k).length]? = some k := by
  have h1 : kept dims n = kept dims k ++ k :: ((List.range' (k + 1) (n - k - 1)).filter fun k => !dims.contains k) := by
    unfold kept
    have : List.range n = List.range k ++ k :: List.range' (k + 1) (n - k - 1) := by
      rw [List.range_eq_range', List.range_eq_range', show k :: List.range' (k + 1) (n - k - 1) = List.range' k (n - k) by
        rw [show n - k = (n - k - 1) + 1 by omega, List.range'_succ]; rfl]
      have := List.range'_append (s := 0) (m := k) (n := n - k) (step := 1)
      simp only [Nat.zero_add, Nat.one_mul] at this
      rw [this]
      congr 1
      omega
    rw [this, List.filter_append, List.filter_cons, if_pos (by simpa using hd)]
  have h2 := kept_length dims k hn
  have h3 : k - (dims.filter fun e => e < k).length = (kept dims k).length := by omega
  rw [h3, h1, List.getElem?_append_right (Nat.le_refl _)]
  simp

theorem delM_map {β : Type} (f : Nat → β) (dims : List Nat) : ∀ (n p : Nat),
    delM (mask dims p n) ((List.range' p n).map f) = ((List.range' p n).filter fun k => !dims.contains k).map f := by
  intro n
  induction n with
  | zero => intro p; rfl
  | succ n ih =>
    intro p
    rw [mask_succ, List.range'_succ, List.map_cons, List.filter_cons]
    cases hc : dims.contains p with
    | true => simp [delM, ih]
    | false => simp [delM, ih]

/-- The mask of the reduced row dimensions. -/
theorem mask_reduced (d1 d0 : List Nat) (n : Nat) (hn : d0.Nodup) (h1 : ∀ d ∈ d1, d < n) (hdis : ∀ d ∈ d1, d ∉ d0) :
    mask (d1.map fun d => d - (d0.filter fun e => e < d).length) 0 (kept d0 n).length = delM (mask d0 0 n) (mask d1 0 n) := by
  rw [show mask d1 0 n = (List.range' 0 n).map (fun k => d1.contains k) from rfl, delM_map, ← List.range_eq_range']
  rw [show ((List.range n).filter fun k => !d0.contains k) = kept d0 n from rfl]
  unfold mask
  rw [← List.range_eq_range']
  apply List.ext_getElem
  · simp
  · intro t ht _
    have ht' : t < (kept d0 n).length := by simpa using ht
    simp only [List.getElem_map, List.getElem_range]
    rw [Bool.eq_iff_iff]
    simp only [List.contains_iff_mem, List.mem_map]
    have hmem := (mem_kept d0 n _).1 (List.getElem_mem ht')
    constructor
    · rintro ⟨d, hd, he⟩
      have := kept_getElem d0 n d hn (h1 d hd) (hdis d hd)
      rw [he, List.getElem?_eq_getElem ht', Option.some.injEq] at this
      rw [this]; exact hd
    · intro hd
      refine ⟨_, hd, ?_⟩
      have := kept_getElem d0 n _ hn hmem.1 hmem.2
      have hnd : (kept d0 n).Nodup := List.nodup_range.filter _
      obtain ⟨hlt, he⟩ := List.getElem?_eq_some_iff.mp this
      exact (List.Nodup.getElem_inj_iff hnd).mp he

/-- Averaging the row accumulator along the reduced row dimensions is averaging over the indices that differ in the row
dimensions. -/
theorem slice_del (s d1 d0 i : List Nat) (hi : InBox s i) (hn : d0.Nodup) (h1 : ∀ d ∈ d1, d < s.length) (hdis : ∀ d ∈ d1, d ∉ d0) :
    slice (del d0 s) (d1.map fun d => d - (d0.filter fun e => e < d).length) (del d0 i) = (slice s d1 i).map (del d0) := by
  rw [slice_sliceM _ _ _ (del_inBox hi), slice_sliceM _ _ _ hi, del_length, mask_reduced d1 d0 s.length hn h1 hdis]
  have hm : (sliceM s (mask d1 0 s.length) i).map (del d0) = (sliceM s (mask d1 0 s.length) i).map (delM (mask d0 0 s.length)) := by
    apply List.map_congr_left
    intro j hj
    rw [del_mask, sliceM_length s _ i (by simp [mask]) hi.length j hj]
  rw [hm, sliceM_del s _ _ i (by simp [mask]) (by simp [mask]) hi.length, del_mask d0 s, del_mask d0 i, hi.length]
  intro e he
  unfold mask at he
  rw [List.zip_map', List.mem_map] at he
  obtain ⟨k, _, rfl⟩ := he
  simp only [List.contains_iff_mem]
  rintro ⟨ha, hb⟩
  exact hdis k hb ha

/-! ### Facts about the dimensions -/

theorem positions_nodup (r : List FactorDim) (d : FactorDim) : (positions r d).Nodup := List.nodup_range.filter _

theorem mem_positions (r : List FactorDim) (d : FactorDim) (k : Nat) : k ∈ positions r d ↔ r[k]? = some d := by
  unfold positions
  simp only [List.mem_filter, List.mem_range, decide_eq_true_eq]
  constructor
  · exact fun h => h.2
  · intro h
    exact ⟨(List.getElem?_eq_some_iff.mp h).1, h⟩

/-- What the update relies on about row and column dimensions. -/
structure GoodDims (n : Nat) (d1 d0 : List Nat) : Prop where
  nodup1 : d1.Nodup
  nodup0 : d0.Nodup
  lt1 : ∀ d ∈ d1, d < n
  lt0 : ∀ d ∈ d0, d < n
  dis : ∀ d ∈ d1, d ∉ d0

theorem good_positions (r : List FactorDim) : GoodDims r.length (positions r .row) (positions r .column) where
  nodup1 := positions_nodup _ _
  nodup0 := positions_nodup _ _
  lt1 := fun d hd => (List.getElem?_eq_some_iff.mp ((mem_positions _ _ _).1 hd)).1
  lt0 := fun d hd => (List.getElem?_eq_some_iff.mp ((mem_positions _ _ _).1 hd)).1
  dis := fun d h1 h2 => by
    rw [mem_positions] at h1 h2
    rw [h1] at h2
    cases h2

theorem good_factored (D : Def) (hs : ∀ l, (D.argsort l).Perm (List.range l.length)) (s d1 d0 : List Nat)
    (h : factoredDims D s = .dims d1 d0) : GoodDims s.length d1 d0 := by
  unfold factoredDims at h
  dsimp only at h
  split_ifs at h with h1 h2
  have hl : (D.argsort s).length = s.length := by simpa using (hs s).length_eq
  have h2' : 2 ≤ s.length := by
    push Not at h1; exact h1.2
  have hnd : (D.argsort s).Nodup := (hs s).nodup_iff.mpr List.nodup_range
  have hmem : ∀ x ∈ D.argsort s, x < s.length := fun x hx => by simpa using (hs s).mem_iff.mp hx
  simp only [Dims.dims.injEq] at h
  obtain ⟨rfl, rfl⟩ := h
  have ha : (D.argsort s).length - 2 < (D.argsort s).length := by omega
  have hb : (D.argsort s).length - 1 < (D.argsort s).length := by omega
  rw [getD_lt _ 0 ha, getD_lt _ 0 hb]
  refine ⟨List.nodup_singleton _, List.nodup_singleton _, ?_, ?_, ?_⟩
  · intro d hd; rw [List.mem_singleton] at hd; rw [hd]; exact hmem _ (List.getElem_mem _)
  · intro d hd; rw [List.mem_singleton] at hd; rw [hd]; exact hmem _ (List.getElem_mem _)
  · intro d hd hd'
    rw [List.mem_singleton] at hd hd'
    rw [hd] at hd'
    have := (List.Nodup.getElem_inj_iff hnd).mp hd'
    omega

theorem good_dims (D : Def) (hs : ∀ l, (D.argsort l).Perm (List.range l.length)) (path : List Char) (s avg d1 d0 : List Nat)
    (h : dimsFor D path s = .ok (avg, .dims d1 d0)) : GoodDims s.length d1 d0 := by
  unfold dimsFor at h
  cases hr : factorRule D path with
  | error e => rw [hr] at h; cases h
  | ok rule =>
    rw [hr] at h
    dsimp only at h
    cases hp : parseRule rule s with
    | error e => rw [hp] at h; cases h
    | ok q =>
      obtain ⟨a, d⟩ := q
      rw [hp] at h
      cases d with
      | unfactored => simp at h
      | heuristic =>
        simp only [Except.ok.injEq, Prod.mk.injEq] at h
        exact good_factored D hs s d1 d0 h.2
      | dims e1 e0 =>
        simp only [Except.ok.injEq, Prod.mk.injEq, Dims.dims.injEq] at h
        obtain ⟨_, rfl, rfl⟩ := h
        unfold parseRule at hp
        cases rule with
        | none => simp at hp
        | some rr =>
          cases rr with
          | heuristic => dsimp only at hp; split_ifs at hp; simp at hp
          | dims r =>
            dsimp only at hp
            split_ifs at hp with h1 h2 h3 h3
            all_goals simp only [Except.ok.injEq, Prod.mk.injEq, Dims.dims.injEq, reduceCtorEq, and_false] at hp
            obtain ⟨_, rfl, rfl⟩ := hp
            have := good_positions r
            rw [not_not.mp h1] at this
            exact this

/-! ### The pieces of the update -/

theorem scale_reads (O : Ops V) (H : HP V) (lr : V) (avg : List Nat) (param : NDArray V) :
    Reads (updateScale O H lr avg param) param.shape (stepSize O H lr param.shape avg param.get) := by
  unfold updateScale stepSize
  cases H.mulByScale with
  | false =>
    simp only [Bool.false_eq_true, if_false]
    exact reads_scalar lr _
  | true =>
    simp only [if_true]
    have h := (meanKeep_reads O.mean avg ((is_self param).un fun x => O.mul x x)).un O.sqrt
    have h' := h.un (fun x => O.max x H.eps2)
    cases H.maxScale with
    | none => exact h'.un _
    | some c => exact (h'.un (fun x => O.min x c)).un _

theorem plain_is (O : Ops V) (H : HP V) (decay : V) (st : PState V) (grad0 : NDArray V) (hv : st.v.shape = grad0.shape) :
    ∃ v y, plainUpdate O decay st (un O.castG grad0) (un (fun g => O.add (O.mul g g) H.eps1) (un O.castG grad0)) = .ok (v, y) ∧
      Is v grad0.shape (fun i => ema O decay (st.v.get i) (sqr O H grad0.get i)) ∧
      Is y grad0.shape (yPlain O H decay st.v.get grad0.get) := by
  have hg := (is_self grad0).un O.castG
  have hq := hg.un (fun g => O.add (O.mul g g) H.eps1)
  have hv' : Is st.v grad0.shape st.v.get := hv ▸ is_self st.v
  obtain ⟨v, e1, h1⟩ := bin_left O.add (hv'.un (O.mul decay)) (hq.un (O.mul (O.sub O.one decay))).reads
  obtain ⟨y, e2, h2⟩ := bin_left O.mul hg (h1.un O.rsqrt).reads
  refine ⟨v, y, ?_, h1, h2⟩
  simp only [plainUpdate, e1, e2]

theorem factored_is (O : Ops V) (H : HP V) (decay : V) (st : PState V) (grad0 : NDArray V) (d1 d0 : List Nat)
    (hd : GoodDims grad0.shape.length d1 d0) (hr : st.vRow.shape = del d0 grad0.shape) (hc : st.vCol.shape = del d1 grad0.shape) :
    ∃ r c y, factoredUpdate O decay d1 d0 st (un O.castG grad0) (un (fun g => O.add (O.mul g g) H.eps1) (un O.castG grad0)) =
        .ok (r, c, y) ∧ r.shape = del d0 grad0.shape ∧ c.shape = del d1 grad0.shape ∧
      (∀ i, InBox grad0.shape i → r.get (del d0 i) = rowEst O H decay grad0.shape d0 st.vRow.get grad0.get i) ∧
      (∀ i, InBox grad0.shape i → c.get (del d1 i) = rowEst O H decay grad0.shape d1 st.vCol.get grad0.get i) ∧
      Is y grad0.shape (yFactored O H decay grad0.shape d1 d0 st.vRow.get st.vCol.get grad0.get) := by
  have hg := (is_self grad0).un O.castG
  have hq := hg.un (fun g => O.add (O.mul g g) H.eps1)
  have acc : ∀ (d : List Nat) (v : NDArray V), v.shape = del d grad0.shape →
      ∃ r, bin O.add (un (O.mul decay) v) (un (O.mul (O.sub O.one decay)) (meanAxes O.mean d
          (un (fun g => O.add (O.mul g g) H.eps1) (un O.castG grad0)))) = .ok r ∧ r.shape = del d grad0.shape ∧
        ∀ i, InBox grad0.shape i → r.get (del d i) = rowEst O H decay grad0.shape d v.get grad0.get i := by
    intro d v hv
    obtain ⟨hs, hm⟩ := meanAxes_get O.mean d hq
    have ha : Is v (del d grad0.shape) v.get := hv ▸ is_self v
    have hb := is_self (meanAxes O.mean d (un (fun g => O.add (O.mul g g) H.eps1) (un O.castG grad0)))
    rw [hs] at hb
    obtain ⟨r, e, h⟩ := bin_left O.add (ha.un (O.mul decay)) (hb.un (O.mul (O.sub O.one decay))).reads
    refine ⟨r, e, h.1, ?_⟩
    intro i hi
    rw [h.2 _ (del_inBox hi)]
    dsimp only
    rw [hm i hi]
    rfl
  obtain ⟨r, e1, rs, rg⟩ := acc d0 st.vRow hr
  obtain ⟨c, e2, cs, cg⟩ := acc d1 st.vCol hc
  have hri : Is r (del d0 grad0.shape) r.get := rs ▸ is_self r
  obtain ⟨q, e3, h3⟩ := bin_left O.div hri
    (meanKeep_reads O.mean (d1.map fun d => d - (d0.filter fun e => e < d).length) hri)
  have hrow : Reads (expand d0 (un O.rsqrt q)) grad0.shape (fun i => O.rsqrt (O.div (rowEst O H decay grad0.shape d0 st.vRow.get grad0.get i)
      (O.mean ((slice grad0.shape d1 i).map (rowEst O H decay grad0.shape d0 st.vRow.get grad0.get))))) := by
    refine expand_reads hd.nodup0 hd.lt0 (h3.un O.rsqrt).1 ?_
    intro i hi
    rw [(h3.un O.rsqrt).2 _ (del_inBox hi)]
    dsimp only
    rw [rg i hi, slice_del _ _ _ _ hi hd.nodup0 hd.lt1 hd.dis, List.map_map]
    congr 3
    apply List.map_congr_left
    intro j hj
    exact rg j ((mem_slice _ _ _ _).1 hj).1
  have hcol : Reads (expand d1 (un O.rsqrt c)) grad0.shape (fun i => O.rsqrt (rowEst O H decay grad0.shape d1 st.vCol.get grad0.get i)) := by
    refine expand_reads hd.nodup1 hd.lt1 cs ?_
    intro i hi
    simp only [Adafactor.un, cg i hi]
  obtain ⟨y1, e4, h4⟩ := bin_left O.mul hg hrow
  obtain ⟨y, e5, h5⟩ := bin_left O.mul h4 hcol
  refine ⟨r, c, y, ?_, rs, cs, rg, cg, h5⟩
  simp only [factoredUpdate, e1, e2, e3, e4, e5]

theorem clip_is (O : Ops V) (clip : Option V) (avg : List Nat) (y : NDArray V) (s : List Nat) (f : List Nat → V) (h : Is y s f) :
    ∃ y', clipUpdate O clip avg y = .ok y' ∧ Is y' s (clipped O clip s avg f) := by
  cases clip with
  | none => exact ⟨y, rfl, h⟩
  | some c =>
    have h1 := ((meanKeep_reads O.mean avg (h.un fun x => O.mul x x)).un O.sqrt).un (fun x => O.max O.one (O.div x c))
    exact bin_left O.div h h1

theorem finish_is (O : Ops V) (H : HP V) (lr : V) (avg : List Nat) (param y : NDArray V) (st : PState V) (f : List Nat → V)
    (hy : Is y param.shape (clipped O H.clip param.shape avg f)) (hm : H.beta1.isSome = true → st.m.shape = param.shape) :
    ∃ np m, finish O H (effDecay O H lr) param (updateScale O H lr avg param) y st = .ok (np, m) ∧
      Is np param.shape (newParam O H lr param.shape avg param.get st.m.get f) ∧
      (H.beta1 = none → m = zeros O.zero [1]) ∧
      (H.beta1.isSome = true → Is m param.shape (fun i => O.castM (subtrahend O H lr param.shape avg param.get st.m.get f i))) := by
  obtain ⟨u, e1, h1⟩ := bin_right O.mul (scale_reads O H lr avg param) hy
  have hp : ∃ p, p = (match effDecay O H lr with
        | none => param
        | some w => un (O.mul (O.sub O.one w)) param) ∧ Is p param.shape (fun i => match effDecay O H lr with
        | none => param.get i
        | some w => O.mul (O.sub O.one w) (param.get i)) := by
    refine ⟨_, rfl, ?_⟩
    cases effDecay O H lr with
    | none => exact is_self param
    | some w => exact (is_self param).un _
  obtain ⟨p, ep, hp⟩ := hp
  cases hb : H.beta1 with
  | none =>
    obtain ⟨np, e2, h2⟩ := bin_left O.sub hp h1.reads
    refine ⟨np, zeros O.zero [1], ?_, ?_, fun _ => rfl, by simp⟩
    · simp only [finish, e1, hb]
      cases hw : effDecay O H lr <;> rw [hw] at ep <;> dsimp only at ep ⊢ <;> rw [← ep, e2]
    · refine h2.congr ?_
      intro i _
      simp only [newParam, subtrahend, hb]
      cases effDecay O H lr <;> rfl
  | some b =>
    have hm' : Is st.m param.shape st.m.get := (hm (by rw [hb]; rfl)) ▸ is_self st.m
    obtain ⟨m, e3, h3⟩ := bin_left O.add (hm'.un (O.mul b)) (h1.un (O.mul (O.sub O.one b))).reads
    obtain ⟨np, e2, h2⟩ := bin_left O.sub hp h3.reads
    refine ⟨np, un O.castM m, ?_, ?_, by simp, fun _ => ?_⟩
    · simp only [finish, e1, hb, e3]
      cases hw : effDecay O H lr <;> rw [hw] at ep <;> dsimp only at ep ⊢ <;> rw [← ep, e2]
    · refine h2.congr ?_
      intro i _
      simp only [newParam, subtrahend, hb]
      cases effDecay O H lr <;> rfl
    · refine (h3.un O.castM).congr ?_
      intro i _
      simp only [subtrahend, hb]

/-- Elementwise guard of one array. -/
def Guarded (O : Ops V) (H : HP V) (old new out : NDArray V) : Prop :=
  out.shape = old.shape ∧ ∀ i, InBox old.shape i → out.get i = keep O H (old.get i) (new.get i)

theorem guard_is (O : Ops V) (H : HP V) (param : NDArray V) (st : PState V) (np : NDArray V) (up : PState V)
    (hp : np.shape = param.shape) (hr : up.vRow.shape = st.vRow.shape) (hc : up.vCol.shape = st.vCol.shape)
    (hv : up.v.shape = st.v.shape) (hm : up.m.shape = st.m.shape) :
    ∃ p a b c d, guard O H.skipNan param st np up = .ok (un O.castP p, ⟨a, b, c, d⟩) ∧ Guarded O H param np p ∧
      Guarded O H st.vRow up.vRow a ∧ Guarded O H st.vCol up.vCol b ∧ Guarded O H st.v up.v c ∧ Guarded O H st.m up.m d := by
  have one : ∀ (o n : NDArray V), n.shape = o.shape → H.skipNan = true → ∃ x, whereNan O.isnan o n = .ok x ∧ Guarded O H o n x := by
    intro o n hs hk
    have hn : Is n o.shape n.get := hs ▸ is_self n
    obtain ⟨x, e, h⟩ := bin_left (fun o n => if O.isnan n then o else n) (is_self o) hn.reads
    refine ⟨x, e, h.1, ?_⟩
    intro i hi
    rw [h.2 i hi]
    simp only [keep, hk, Bool.true_and]
  cases hk : H.skipNan with
  | false =>
    have triv : ∀ (o n : NDArray V), n.shape = o.shape → Guarded O H o n n := by
      intro o n hs
      refine ⟨hs, fun i _ => ?_⟩
      simp [keep, hk]
    exact ⟨np, up.vRow, up.vCol, up.v, up.m, by simp only [guard]; rfl, triv _ _ hp, triv _ _ hr, triv _ _ hc, triv _ _ hv, triv _ _ hm⟩
  | true =>
    obtain ⟨p, ep, gp⟩ := one param np hp hk
    obtain ⟨a, ea, ga⟩ := one _ _ hr hk
    obtain ⟨b, eb, gb⟩ := one _ _ hc hk
    obtain ⟨c, ec, gc⟩ := one _ _ hv hk
    obtain ⟨d, ed, gd⟩ := one _ _ hm hk
    exact ⟨p, a, b, c, d, by simp only [guard, ep, ea, eb, ec, ed, if_true], gp, ga, gb, gc, gd⟩

/-- The update before the guard: the branch taken and the raw values. -/
theorem applyParam_raw (O : Ops V) (D : Def) (H : HP V) (step : Int) (path : List Char) (param grad : NDArray V)
    (st init : PState V) (lr : V) (avg : List Nat) (d : Dims) (hs : ∀ l, (D.argsort l).Perm (List.range l.length))
    (hlr : H.learningRate = some lr) (hg : grad.shape = param.shape) (hd : dimsFor D path param.shape = .ok (avg, d))
    (hi : initParam O D H.beta1.isSome path param.shape = .ok init) (hst : ShapesOf st init) :
    ∃ np up, applyParam O D H step path param st grad = guard O H.skipNan param st np up ∧
      np.shape = param.shape ∧ ShapesOf up st ∧
      (H.beta1 = none → up.m = zeros O.zero [1]) ∧
      (∀ d1 d0, d = .dims d1 d0 → up.v = zeros O.zero [1] ∧
        (∀ i, InBox param.shape i →
          np.get i = newParam O H lr param.shape avg param.get st.m.get
            (yFactored O H (O.decayPow (step - H.stepOffset) H.decayRate) param.shape d1 d0 st.vRow.get st.vCol.get grad.get) i ∧
          up.vRow.get (del d0 i) = rowEst O H (O.decayPow (step - H.stepOffset) H.decayRate) param.shape d0 st.vRow.get grad.get i ∧
          up.vCol.get (del d1 i) = rowEst O H (O.decayPow (step - H.stepOffset) H.decayRate) param.shape d1 st.vCol.get grad.get i ∧
          (H.beta1.isSome = true → up.m.get i = O.castM (subtrahend O H lr param.shape avg param.get st.m.get
            (yFactored O H (O.decayPow (step - H.stepOffset) H.decayRate) param.shape d1 d0 st.vRow.get st.vCol.get grad.get) i)))) ∧
      ((∀ d1 d0, d ≠ .dims d1 d0) → up.vRow = zeros O.zero [1] ∧ up.vCol = zeros O.zero [1] ∧
        (∀ i, InBox param.shape i →
          np.get i = newParam O H lr param.shape avg param.get st.m.get
            (yPlain O H (O.decayPow (step - H.stepOffset) H.decayRate) st.v.get grad.get) i ∧
          up.v.get i = ema O (O.decayPow (step - H.stepOffset) H.decayRate) (st.v.get i) (sqr O H grad.get i) ∧
          (H.beta1.isSome = true → up.m.get i = O.castM (subtrahend O H lr param.shape avg param.get st.m.get
            (yPlain O H (O.decayPow (step - H.stepOffset) H.decayRate) st.v.get grad.get) i)))) := by
  obtain ⟨s1, s2, s3, s4⟩ := hst
  have hm0 : init.m.shape = if H.beta1.isSome then param.shape else [1] := by
    unfold initParam at hi
    rw [hd] at hi
    dsimp only at hi
    cases d <;> simp only [Except.ok.injEq] at hi <;> rw [← hi] <;> dsimp only <;> split_ifs <;> rfl
  have hm : H.beta1.isSome = true → st.m.shape = param.shape := by
    intro h; rw [s4, hm0, if_pos h]
  have hm1 : H.beta1 = none → st.m.shape = [1] := by
    intro h; rw [s4, hm0, h]; rfl
  have hmup : ∀ m : NDArray V, ∀ f : List Nat → V, (H.beta1 = none → m = zeros O.zero [1]) →
      (H.beta1.isSome = true → Is m param.shape f) → m.shape = st.m.shape := by
    intro m f h1 h2
    cases hb : H.beta1 with
    | none => rw [h1 hb, hm1 hb]; rfl
    | some b => rw [(h2 (by rw [hb]; rfl)).1, hm (by rw [hb]; rfl)]
  have plain : (∀ d1 d0, d ≠ .dims d1 d0) → st.v.shape = grad.shape ∧ st.vRow.shape = [1] ∧ st.vCol.shape = [1] := by
    intro hne
    unfold initParam at hi
    rw [hd] at hi
    cases d with
    | dims d1 d0 => exact absurd rfl (hne d1 d0)
    | unfactored =>
      simp only [Except.ok.injEq] at hi
      rw [s1, s2, s3, ← hi, hg]; exact ⟨rfl, rfl, rfl⟩
    | heuristic =>
      simp only [Except.ok.injEq] at hi
      rw [s1, s2, s3, ← hi, hg]; exact ⟨rfl, rfl, rfl⟩
  by_cases hdd : ∃ d1 d0, d = .dims d1 d0
  · obtain ⟨d1, d0, rfl⟩ := hdd
    have hgd := good_dims D hs path param.shape avg d1 d0 hd
    have hsh : st.vRow.shape = del d0 grad.shape ∧ st.vCol.shape = del d1 grad.shape ∧ st.v.shape = [1] := by
      unfold initParam at hi
      rw [hd] at hi
      simp only [Except.ok.injEq] at hi
      rw [s1, s2, s3, ← hi, hg]; exact ⟨rfl, rfl, rfl⟩
    obtain ⟨r, c, y, e1, rs, cs, rg, cg, hy⟩ := factored_is O H (O.decayPow (step - H.stepOffset) H.decayRate) st grad d1 d0
      (by rw [hg]; exact hgd) hsh.1 hsh.2.1
    rw [hg] at rs cs rg cg hy
    obtain ⟨y', e2, hy'⟩ := clip_is O H.clip avg y _ _ hy
    obtain ⟨np, m, e3, hnp, hmn, hms⟩ := finish_is O H lr avg param y' st _ hy' hm
    refine ⟨np, ⟨r, c, zeros O.zero [1], m⟩, ?_, hnp.1, ⟨?_, ?_, ?_, hmup m _ hmn hms⟩, hmn, ?_, ?_⟩
    · simp only [applyParam, hlr, hd, e1, e2, e3]
    · rw [rs, hsh.1, hg]
    · rw [cs, hsh.2.1, hg]
    · rw [hsh.2.2]; rfl
    · intro e1 e0 he
      simp only [Dims.dims.injEq] at he
      obtain ⟨rfl, rfl⟩ := he
      exact ⟨rfl, fun i hi => ⟨hnp.2 i hi, rg i hi, cg i hi, fun h => (hms h).2 i hi⟩⟩
    · intro hne; exact absurd rfl (hne d1 d0)
  · have hne : ∀ d1 d0, d ≠ .dims d1 d0 := fun d1 d0 h => hdd ⟨d1, d0, h⟩
    obtain ⟨hv, hr1, hc1⟩ := plain hne
    obtain ⟨v, y, e1, hv', hy⟩ := plain_is O H (O.decayPow (step - H.stepOffset) H.decayRate) st grad hv
    rw [hg] at hv' hy
    obtain ⟨y', e2, hy'⟩ := clip_is O H.clip avg y _ _ hy
    obtain ⟨np, m, e3, hnp, hmn, hms⟩ := finish_is O H lr avg param y' st _ hy' hm
    refine ⟨np, ⟨zeros O.zero [1], zeros O.zero [1], v, m⟩, ?_, hnp.1, ⟨?_, ?_, ?_, hmup m _ hmn hms⟩, hmn, ?_, ?_⟩
    · cases d with
      | dims d1 d0 => exact absurd rfl (hne d1 d0)
      | unfactored => simp only [applyParam, hlr, hd, e1, e2, e3]
      | heuristic => simp only [applyParam, hlr, hd, e1, e2, e3]
    · rw [hr1]; rfl
    · rw [hc1]; rfl
    · rw [hv, hg]; exact hv'.1
    · intro d1 d0 he; exact absurd he (hne d1 d0)
    · intro _
      exact ⟨rfl, rfl, fun i hi => ⟨hnp.2 i hi, hv'.2 i hi, fun h => (hms h).2 i hi⟩⟩

end Verif.Adafactor
