import Verif.Model.NDArray
namespace Verif.ND

theorem getD_lt {α : Type} (l : List α) (d : α) {k : Nat} (h : k < l.length) : l.getD k d = l[k] := by
  simp [List.getD, h]

theorem ravel_lt {s i : List Nat} (h : InBox s i) : ravel s i < s.prod := by
  induction h with
  | nil => simp [ravel]
  | @cons a b l1 l2 hab _ ih =>
    simp only [ravel, List.prod_cons]
    calc a * l2.prod + ravel l2 l1 < a * l2.prod + l2.prod := by omega
      _ = (a + 1) * l2.prod := by ring
      _ ≤ b * l2.prod := Nat.mul_le_mul_right _ hab

theorem unravel_length (s : List Nat) : ∀ k, (unravel s k).length = s.length := by
  induction s with
  | nil => intro k; rfl
  | cons b ss ih => intro k; simp [unravel, ih]

theorem unravel_inBox (s : List Nat) : ∀ k, k < s.prod → InBox s (unravel s k) := by
  induction s with
  | nil => intro k _; exact List.Forall₂.nil
  | cons b ss ih =>
    intro k hk
    rw [List.prod_cons] at hk
    have hp : 0 < ss.prod := Nat.pos_of_ne_zero (by rintro h; rw [h] at hk; omega)
    exact List.Forall₂.cons (Nat.div_lt_of_lt_mul (by rw [Nat.mul_comm]; exact hk)) (ih _ (Nat.mod_lt _ hp))

theorem ravel_unravel (s : List Nat) : ∀ k, k < s.prod → ravel s (unravel s k) = k := by
  induction s with
  | nil => intro k hk; simp [ravel] at *; omega
  | cons b ss ih =>
    intro k hk
    rw [List.prod_cons] at hk
    have hp : 0 < ss.prod := Nat.pos_of_ne_zero (by rintro h; rw [h] at hk; omega)
    simp only [unravel, ravel, ih _ (Nat.mod_lt _ hp)]
    rw [Nat.mul_comm]; exact Nat.div_add_mod k ss.prod

theorem unravel_ravel {s i : List Nat} (h : InBox s i) : unravel s (ravel s i) = i := by
  induction h with
  | nil => rfl
  | @cons a b l1 l2 hab hr ih =>
    have := ravel_lt hr
    simp only [ravel, unravel]
    rw [show a * l2.prod + ravel l2 l1 = ravel l2 l1 + l2.prod * a by ring,
      Nat.add_mul_div_left _ _ (by omega), Nat.div_eq_of_lt this, Nat.zero_add, Nat.add_mul_mod_self_left,
      Nat.mod_eq_of_lt this, ih]

theorem InBox.prod_pos {s i : List Nat} (h : InBox s i) : 0 < s.prod := by
  have := ravel_lt h; omega

theorem ravel_append {s1 i1 : List Nat} (h : i1.length = s1.length) (s2 i2 : List Nat) :
    ravel (s1 ++ s2) (i1 ++ i2) = ravel s1 i1 * s2.prod + ravel s2 i2 := by
  induction s1 generalizing i1 with
  | nil =>
    cases i1 with
    | nil => simp [ravel]
    | cons a l => simp at h
  | cons b ss ih =>
    cases i1 with
    | nil => simp at h
    | cons a l =>
      simp only [List.cons_append, ravel, List.prod_append, ih (by simpa using h)]
      ring

theorem unravel_append (s1 s2 : List Nat) : ∀ k, k < (s1 ++ s2).prod →
    unravel (s1 ++ s2) k = unravel s1 (k / s2.prod) ++ unravel s2 (k % s2.prod) := by
  induction s1 with
  | nil =>
    intro k hk
    simp only [List.nil_append] at hk ⊢
    simp [unravel, Nat.mod_eq_of_lt hk]
  | cons b ss ih =>
    intro k hk
    have hp : 0 < (ss ++ s2).prod := Nat.pos_of_ne_zero (by
      rintro h; rw [List.cons_append, List.prod_cons, h] at hk; omega)
    simp only [List.cons_append, unravel, List.prod_append]
    rw [Nat.div_div_eq_div_mul, Nat.mul_comm s2.prod ss.prod]
    rw [ih _ (by rw [List.prod_append]; exact Nat.mod_lt _ (by rw [← List.prod_append]; exact hp)),
      Nat.mul_comm ss.prod s2.prod, Nat.mod_mul_right_div_self, Nat.mod_mul_right_mod]

theorem InBox.length {s i : List Nat} (h : InBox s i) : i.length = s.length := List.Forall₂.length_eq h

theorem InBox.append {s1 i1 s2 i2 : List Nat} (h1 : InBox s1 i1) (h2 : InBox s2 i2) : InBox (s1 ++ s2) (i1 ++ i2) := by
  unfold InBox at *
  induction h1 with
  | nil => exact h2
  | cons hab _ ih => exact List.Forall₂.cons hab ih

theorem inBox_iff {s i : List Nat} : InBox s i ↔ i.length = s.length ∧ ∀ k, k < s.length → i.getD k 0 < s.getD k 0 := by
  constructor
  · intro h
    refine ⟨h.length, ?_⟩
    unfold InBox at h
    induction h with
    | nil => intro k hk; simp at hk
    | @cons a b l1 l2 hab _ ih =>
      intro k hk
      cases k with
      | zero => simpa using hab
      | succ k => simpa using ih k (by simpa using hk)
  · rintro ⟨h1, h2⟩
    unfold InBox
    induction s generalizing i with
    | nil => cases i with
      | nil => exact List.Forall₂.nil
      | cons a l => simp at h1
    | cons b ss ih => cases i with
      | nil => simp at h1
      | cons a l =>
        refine List.Forall₂.cons (by simpa using h2 0 (by simp)) (ih (by simpa using h1) ?_)
        intro k hk
        simpa using h2 (k + 1) (by simpa using hk)

/-- Every element is at exactly one index, and every index holds one. -/
structure Enumerates {D : Type} (a : NDArray (Option D)) (devs : List D) : Prop where
  holds : ∀ i, InBox a.shape i → ∃ d ∈ devs, a.get i = some d
  once : ∀ d ∈ devs, ∃! i, InBox a.shape i ∧ a.get i = some d

theorem Enumerates.of_bij {D : Type} {a b : NDArray (Option D)} {devs : List D} (h : Enumerates a devs)
    (f g : List Nat → List Nat) (hf : ∀ i, InBox b.shape i → InBox a.shape (f i))
    (hg : ∀ i, InBox a.shape i → InBox b.shape (g i))
    (hfg : ∀ i, InBox a.shape i → f (g i) = i) (hgf : ∀ i, InBox b.shape i → g (f i) = i)
    (hget : ∀ i, InBox b.shape i → b.get i = a.get (f i)) : Enumerates b devs := by
  constructor
  · intro i hi
    rw [hget i hi]
    exact h.holds _ (hf i hi)
  · intro d hd
    obtain ⟨i, ⟨hi, hid⟩, hu⟩ := h.once d hd
    refine ⟨g i, ⟨hg i hi, by rw [hget _ (hg i hi), hfg i hi]; exact hid⟩, ?_⟩
    rintro j ⟨hj, hjd⟩
    rw [hget j hj] at hjd
    rw [← hu (f j) ⟨hf j hj, hjd⟩, hgf j hj]

theorem Enumerates.reshape {D : Type} {a b : NDArray (Option D)} {devs : List D} {s : List Nat} (h : Enumerates a devs)
    (hr : reshape a s = some b) : Enumerates b devs := by
  unfold ND.reshape at hr
  split_ifs at hr with hp
  cases hr
  refine h.of_bij (fun i => unravel a.shape (ravel s i)) (fun i => unravel s (ravel a.shape i)) ?_ ?_ ?_ ?_ ?_
  · intro i hi; exact unravel_inBox _ _ (by rw [← hp]; exact ravel_lt hi)
  · intro i hi; exact unravel_inBox _ _ (by rw [hp]; exact ravel_lt hi)
  · intro i hi
    show unravel a.shape (ravel s (unravel s (ravel a.shape i))) = i
    rw [ravel_unravel _ _ (by rw [hp]; exact ravel_lt hi), unravel_ravel hi]
  · intro i hi
    show unravel s (ravel a.shape (unravel a.shape (ravel s i))) = i
    rw [ravel_unravel _ _ (by rw [← hp]; exact ravel_lt hi), unravel_ravel hi]
  · intro i _; rfl

theorem perm_range_idx {axes : List Nat} {n : Nat} (h : axes.Perm (List.range n)) :
    axes.length = n ∧ axes.Nodup ∧ (∀ k, k ∈ axes ↔ k < n) := by
  refine ⟨by simpa using h.length_eq, h.nodup_iff.mpr List.nodup_range, ?_⟩
  intro k; rw [h.mem_iff]; exact List.mem_range

theorem getD_range_map {n k : Nat} (hk : k < n) (f : Nat → Nat) : ((List.range n).map f).getD k 0 = f k := by
  simp [List.getD, hk]

theorem Enumerates.transpose {D : Type} {a b : NDArray (Option D)} {devs : List D} {axes : List Nat} (h : Enumerates a devs)
    (hr : transpose a axes = some b) : Enumerates b devs := by
  unfold ND.transpose at hr
  split_ifs at hr with hp
  obtain ⟨hl, hn, hm⟩ := perm_range_idx hp
  cases hr
  have hidx : ∀ k, k < a.shape.length → axes.idxOf k < axes.length ∧ axes.getD (axes.idxOf k) 0 = k := by
    intro k hk
    have := List.idxOf_lt_length_of_mem ((hm k).mpr hk)
    refine ⟨this, ?_⟩
    rw [getD_lt _ _ this]; exact List.getElem_idxOf this
  refine h.of_bij (fun i => (List.range a.shape.length).map (fun k => i.getD (axes.idxOf k) 0))
    (fun i => axes.map (fun k => i.getD k 0)) ?_ ?_ ?_ ?_ ?_
  · intro i hi
    obtain ⟨h1, h2⟩ := inBox_iff.mp hi
    refine inBox_iff.mpr ⟨by simp, ?_⟩
    intro k hk
    rw [getD_range_map hk]
    obtain ⟨h3, h4⟩ := hidx k hk
    have := h2 (axes.idxOf k) (by simpa using h3)
    rw [getD_lt (axes.map _) _ (by simpa using h3), List.getElem_map] at this
    rw [getD_lt _ _ h3] at h4
    rw [h4] at this
    exact this
  · intro i hi
    obtain ⟨h1, h2⟩ := inBox_iff.mp hi
    refine inBox_iff.mpr ⟨by simp, ?_⟩
    intro k hk
    have hk' : k < axes.length := by simpa using hk
    rw [getD_lt (axes.map _) _ (by simpa using hk'), getD_lt (axes.map _) _ (by simpa using hk'),
      List.getElem_map, List.getElem_map]
    exact h2 _ ((hm _).mp (List.getElem_mem hk'))
  · intro i hi
    obtain ⟨h1, h2⟩ := inBox_iff.mp hi
    apply List.ext_getElem (by simp [h1])
    intro k hk _
    have hk' : k < a.shape.length := by simpa using hk
    obtain ⟨h3, h4⟩ := hidx k hk'
    simp only [List.getElem_map, List.getElem_range]
    rw [getD_lt (axes.map _) _ (by simpa using h3), List.getElem_map]
    rw [getD_lt _ _ h3] at h4
    rw [h4, getD_lt]
  · intro i hi
    obtain ⟨h1, h2⟩ := inBox_iff.mp hi
    apply List.ext_getElem (by simpa using h1.symm)
    intro k hk hk2
    have hk' : k < axes.length := by simpa using hk
    simp only [List.getElem_map]
    have := (hm _).mp (List.getElem_mem hk')
    rw [getD_range_map this, hn.idxOf_getElem, getD_lt]
  · intro i _; rfl

theorem Enumerates.reshapeRows {D : Type} {a b : NDArray (Option D)} {devs : List D} {m : Nat} (h : Enumerates a devs)
    (hr : reshapeRows a m = some b) : Enumerates b devs := by
  unfold ND.reshapeRows at hr
  split_ifs at hr
  exact h.reshape hr

theorem blockAxes_length (w n : Nat) : (blockAxes w n).length = w * n := by
  simp [blockAxes, List.length_flatMap]

theorem flatMap_getElem {α : Type} (w n r q : Nat) (f : Nat → List α) (hf : ∀ r, (f r).length = n) (hr : r < w)
    (hq : q < n) (h : r * n + q < ((List.range w).flatMap f).length) :
    ((List.range w).flatMap f)[r * n + q] = (f r)[q]'(by rw [hf]; exact hq) := by
  induction w with
  | zero => omega
  | succ w ih =>
    have hl : ((List.range w).flatMap f).length = w * n := by simp [List.length_flatMap, hf]
    simp only [List.range_succ, List.flatMap_append, List.flatMap_singleton]
    by_cases hw : r < w
    · have : r * n + q < w * n := by
        calc r * n + q < r * n + n := by omega
          _ = (r + 1) * n := by ring
          _ ≤ w * n := Nat.mul_le_mul_right _ hw
      rw [List.getElem_append_left (by rw [hl]; exact this)]
      exact ih hw _
    · have : r = w := by omega
      subst this
      rw [List.getElem_append_right (by rw [hl]; omega)]
      simp [hl]

theorem blockAxes_getElem (w n r q : Nat) (hr : r < w) (hq : q < n) (h : r * n + q < (blockAxes w n).length) :
    (blockAxes w n)[r * n + q] = w * q + r := by
  have := flatMap_getElem w n r q (fun r => (List.range n).map (fun q => w * q + r)) (by simp) hr hq h
  simp only [List.getElem_map, List.getElem_range] at this
  exact this

theorem lt_block {w n r q : Nat} (hr : r < w) (hq : q < n) : r * n + q < w * n := by
  calc r * n + q < r * n + n := by omega
    _ = (r + 1) * n := by ring
    _ ≤ w * n := Nat.mul_le_mul_right _ hr

theorem blockAxes_perm (w n : Nat) : (blockAxes w n).Perm (List.range (w * n)) := by
  have hn : (blockAxes w n).Nodup := by
    unfold blockAxes
    rw [List.nodup_flatMap]
    refine ⟨?_, ?_⟩
    · intro r hr
      have := List.mem_range.mp hr
      refine List.Nodup.map ?_ List.nodup_range
      intro a b hab
      simp at hab
      omega
    · refine List.Pairwise.imp_of_mem ?_ List.nodup_range
      intro a b ha hb hab x hx hy
      simp only [List.mem_map, List.mem_range] at hx hy ha hb
      obtain ⟨q, _, rfl⟩ := hx
      obtain ⟨q', _, h⟩ := hy
      apply hab
      have h1 : (w * q + a) % w = a := by rw [Nat.mul_add_mod, Nat.mod_eq_of_lt ha]
      have h2 : (w * q' + b) % w = b := by rw [Nat.mul_add_mod, Nat.mod_eq_of_lt hb]
      rw [← h1, ← h2, h]
  refine (List.perm_ext_iff_of_nodup hn List.nodup_range).mpr ?_
  intro k
  constructor
  · intro hk
    unfold blockAxes at hk
    simp only [List.mem_flatMap, List.mem_map, List.mem_range] at hk
    obtain ⟨r, hr, q, hq, rfl⟩ := hk
    rw [List.mem_range]
    calc w * q + r < w * q + w := by omega
      _ = w * (q + 1) := by ring
      _ ≤ w * n := Nat.mul_le_mul_left _ hq
  · intro hk
    rw [List.mem_range] at hk
    have hw : 0 < w := Nat.pos_of_ne_zero (by rintro rfl; simp at hk)
    unfold blockAxes
    simp only [List.mem_flatMap, List.mem_map, List.mem_range]
    exact ⟨k % w, Nat.mod_lt _ hw, k / w, Nat.div_lt_of_lt_mul hk, Nat.div_add_mod k w⟩

theorem blockAxes_idxOf (w n r q : Nat) (hr : r < w) (hq : q < n) : (blockAxes w n).idxOf (w * q + r) = r * n + q := by
  have hlt : r * n + q < (blockAxes w n).length := by rw [blockAxes_length]; exact lt_block hr hq
  have := (perm_range_idx (blockAxes_perm w n)).2.1.idxOf_getElem _ hlt
  rwa [blockAxes_getElem w n r q hr hq hlt] at this

/-- The index before the transposition of block axes: groups of `w` entries, one entry from each block. -/
theorem unblock (w n : Nat) (i : List Nat) :
    (List.range (w * n)).map (fun k => i.getD ((blockAxes w n).idxOf k) 0) =
    (List.range n).flatMap (fun q => (List.range w).map (fun r => i.getD (r * n + q) 0)) := by
  apply List.ext_getElem
  · simp [List.length_flatMap, Nat.mul_comm]
  · intro k hk hk2
    have hk' : k < w * n := by simpa using hk
    have hw : 0 < w := Nat.pos_of_ne_zero (by rintro rfl; simp at hk')
    have h1 : k % w < w := Nat.mod_lt _ hw
    have h2 : k / w < n := Nat.div_lt_of_lt_mul hk'
    have h3 : k = k / w * w + k % w := by rw [Nat.mul_comm]; exact (Nat.div_add_mod k w).symm
    have h4 : ((List.range n).flatMap (fun q => (List.range w).map (fun r => i.getD (r * n + q) 0)))[k] =
        i.getD (k % w * n + k / w) 0 := by
      have := flatMap_getElem n w (k / w) (k % w) (fun q => (List.range w).map (fun r => i.getD (r * n + q) 0))
        (by simp) h2 h1 (by rw [← h3]; exact hk2)
      simp only [← h3] at this
      rw [this]; simp
    rw [h4]
    simp only [List.getElem_map, List.getElem_range]
    rw [← blockAxes_idxOf w n (k % w) (k / w) h1 h2, Nat.div_add_mod]

/-- Splitting every axis into a group: the flat index of a list of groups is the list of the flat indices. -/
theorem unravel_groups (gs is : List (List Nat)) (h : List.Forall₂ InBox gs is) :
    unravel (gs.map List.prod) (ravel gs.flatten is.flatten) = List.zipWith ravel gs is := by
  induction h with
  | nil => rfl
  | @cons g i gs is hgi hr ih =>
    have hp : (gs.map List.prod).prod = gs.flatten.prod := by
      clear ih hr
      induction gs with
      | nil => rfl
      | cons a l ih => rw [List.map_cons, List.prod_cons, List.flatten_cons, List.prod_append, ih]
    have hb : InBox gs.flatten is.flatten := by
      clear ih hp
      induction hr with
      | nil => exact List.Forall₂.nil
      | cons h1 _ ih => simpa using InBox.append h1 ih
    have hlt := ravel_lt hb
    simp only [List.map_cons, unravel, List.flatten_cons, List.zipWith_cons_cons, hp]
    rw [ravel_append hgi.length,
      show ravel g i * gs.flatten.prod + ravel gs.flatten is.flatten = ravel gs.flatten is.flatten + gs.flatten.prod * ravel g i by ring,
      Nat.add_mul_div_left _ _ (by omega), Nat.div_eq_of_lt hlt, Nat.zero_add, Nat.add_mul_mod_self_left,
      Nat.mod_eq_of_lt hlt, ih]

end Verif.ND
