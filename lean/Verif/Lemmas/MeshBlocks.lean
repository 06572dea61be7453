import Verif.Lemmas.Mesh
import Mathlib.Data.List.GetD
import Mathlib.Algebra.BigOperators.Group.List.Lemmas
namespace Verif.Mesh
open Verif.ND Verif.Mesh.Spec

/-- Component-major order of a list of groups. -/
def blk (w : Nat) (G : List (List Nat)) : List Nat := (List.range w).flatMap (fun r => G.map (fun t => t.getD r 0))

theorem flatten_getD {w : Nat} (G : List (List Nat)) (hG : ∀ t ∈ G, t.length = w) (q r : Nat) (hr : r < w) (hq : q < G.length) :
    G.flatten.getD (w * q + r) 0 = (G.getD q []).getD r 0 := by
  induction G generalizing q with
  | nil => simp at hq
  | cons t G ih =>
    have ht : t.length = w := hG t (List.mem_cons_self ..)
    cases q with
    | zero =>
      rw [List.flatten_cons, List.getD_append _ _ _ _ (by omega)]
      simp
    | succ q =>
      rw [List.flatten_cons, List.getD_append_right _ _ _ _ (by rw [ht]; nlinarith)]
      rw [show w * (q + 1) + r - t.length = w * q + r by rw [ht, Nat.mul_add]; omega]
      rw [ih (fun t ht => hG t (List.mem_cons_of_mem _ ht)) q (by simpa using hq)]
      simp

theorem blockAxes_map {w : Nat} (G : List (List Nat)) (hG : ∀ t ∈ G, t.length = w) :
    (blockAxes w G.length).map (fun k => G.flatten.getD k 0) = blk w G := by
  unfold blockAxes blk
  rw [List.map_flatMap]
  apply List.flatMap_congr
  intro r hr
  rw [List.map_map]
  apply List.ext_getElem (by simp)
  intro q hq hq2
  have hq' : q < G.length := by simpa using hq
  simp only [List.getElem_map, Function.comp_apply, List.getElem_range]
  rw [flatten_getD G hG q r (List.mem_range.mp hr) hq', getD_lt G [] hq']

theorem unblock_blk {w : Nat} (G : List (List Nat)) (hG : ∀ t ∈ G, t.length = w) :
    (List.range (w * G.length)).map (fun k => (blk w G).getD ((blockAxes w G.length).idxOf k) 0) = G.flatten := by
  rw [unblock]
  have h : G = (List.range G.length).map (fun q => G.getD q []) := by
    apply List.ext_getElem (by simp)
    intro k hk _
    simp [List.getD, hk]
  conv_rhs => rw [h, ← List.flatMap_def]
  apply List.flatMap_congr
  intro q hq
  have hq' := List.mem_range.mp hq
  have hql : (G.getD q []).length = w := by rw [getD_lt G [] hq']; exact hG _ (List.getElem_mem hq')
  apply List.ext_getElem (by simp only [List.length_map, List.length_range]; exact hql.symm)
  intro r hr hr2
  have hr' : r < w := by simpa using hr
  simp only [List.getElem_map, List.getElem_range]
  have hlt : r * G.length + q < (blk w G).length := by
    unfold blk
    have : ((List.range w).flatMap (fun r => G.map (fun t => t.getD r 0))).length = w * G.length := by
      simp [List.length_flatMap]
    rw [this]
    exact lt_block hr' hq'
  rw [getD_lt _ _ hlt]
  have := flatMap_getElem w G.length r q (fun r => G.map (fun t : List Nat => t.getD r 0)) (by simp) hr' hq' hlt
  unfold blk
  rw [this]
  simp only [List.getElem_map]
  rw [getD_lt _ _ (by rw [hG _ (List.getElem_mem hq')]; exact hr')]
  simp only [getD_lt G [] hq']

theorem blk_inBox {w : Nat} {gs G : List (List Nat)} (h : List.Forall₂ InBox gs G) (hw : ∀ t ∈ gs, t.length = w) :
    InBox (blk w gs) (blk w G) := by
  unfold blk
  have : ∀ (l : List Nat), (∀ r ∈ l, r < w) →
      InBox (l.flatMap (fun r => gs.map (fun t => t.getD r 0))) (l.flatMap (fun r => G.map (fun t => t.getD r 0))) := by
    intro l
    induction l with
    | nil => intro _; exact List.Forall₂.nil
    | cons r l ih =>
      intro hl
      simp only [List.flatMap_cons]
      refine InBox.append ?_ (ih (fun x hx => hl x (List.mem_cons_of_mem _ hx)))
      have hr := hl r (List.mem_cons_self ..)
      clear ih hl
      unfold InBox
      induction h with
      | nil => exact List.Forall₂.nil
      | @cons a b l1 l2 hab _ ih =>
        refine List.Forall₂.cons ?_ (ih (fun t ht => hw t (List.mem_cons_of_mem _ ht)))
        exact (inBox_iff.mp hab).2 r (by rw [hw a (List.mem_cons_self ..)]; exact hr)
  exact this _ (fun r hr => List.mem_range.mp hr)

theorem blk_prod {w : Nat} (gs : List (List Nat)) (hw : ∀ t ∈ gs, t.length = w) :
    (blk w gs).prod = (gs.map List.prod).prod := by
  rw [← blockAxes_map gs hw, (List.Perm.map _ (blockAxes_perm w gs.length)).prod_eq]
  have hlen : gs.flatten.length = w * gs.length := by
    rw [List.length_flatten]
    clear * - hw
    induction gs with
    | nil => rfl
    | cons a l ih =>
      rw [List.map_cons, List.sum_cons, ih (fun t ht => hw t (List.mem_cons_of_mem _ ht)), hw a (List.mem_cons_self ..),
        List.length_cons]; ring
  have : (List.range (w * gs.length)).map (fun k => gs.flatten.getD k 0) = gs.flatten := by
    apply List.ext_getElem (by simp [hlen])
    intro k hk hk'
    simp only [List.getElem_map, List.getElem_range]
    exact getD_lt _ _ hk'
  rw [this, List.prod_flatten]

/-- Where the element of index `zipWith ravel groups G` ends up. -/
theorem blocks_get {w : Nat} {groups G : List (List Nat)} {m : List Nat} {a e : NDArray (Option Dev)}
    (ha : a.shape = groups.map List.prod) (hw : ∀ t ∈ groups, t.length = w) (hG : List.Forall₂ InBox groups G)
    (hb : blocks w groups.length groups m a = .ok e) :
    ravel (blk w groups) (blk w G) < a.shape.prod ∧
    e.get [ravel (blk w groups) (blk w G) / m.prod, ravel (blk w groups) (blk w G) % m.prod] =
      a.get (List.zipWith ravel groups G) := by
  have hbox := blk_inBox hG hw
  have hGw : ∀ t ∈ G, t.length = w := by
    clear * - hG hw
    induction hG with
    | nil => intro t ht; cases ht
    | @cons x y l1 l2 hxy _ ih =>
      intro t ht
      rcases List.mem_cons.mp ht with rfl | ht
      · rw [hxy.length]; exact hw x (List.mem_cons_self ..)
      · exact ih (fun t ht => hw t (List.mem_cons_of_mem _ ht)) t ht
  have hlen : G.length = groups.length := (List.Forall₂.length_eq hG).symm
  have hlt : ravel (blk w groups) (blk w G) < a.shape.prod := by
    rw [ha, ← blk_prod groups hw]; exact ravel_lt hbox
  refine ⟨hlt, ?_⟩
  unfold blocks at hb
  cases h1 : reshape a groups.flatten with
  | none => rw [h1] at hb; cases hb
  | some b =>
    rw [h1] at hb
    dsimp only at hb
    cases h2 : transpose b (blockAxes w groups.length) with
    | none => rw [h2] at hb; cases hb
    | some c =>
      rw [h2] at hb
      dsimp only at hb
      cases h3 : reshapeRows c m.prod with
      | none => rw [h3] at hb; cases hb
      | some e' =>
        rw [h3] at hb
        cases hb
        unfold reshape at h1
        split_ifs at h1 with hp1
        cases h1
        unfold transpose at h2
        split_ifs at h2 with hp2
        cases h2
        unfold reshapeRows reshape at h3
        split_ifs at h3 with hp3 hp4
        cases h3
        dsimp only at hp2 hp3 hp4 ⊢
        have hk : ravel [(List.map (fun k => groups.flatten.getD k 0) (blockAxes w groups.length)).prod / m.prod, m.prod]
            [ravel (blk w groups) (blk w G) / m.prod, ravel (blk w groups) (blk w G) % m.prod] =
            ravel (blk w groups) (blk w G) := by
          simp only [ravel, List.prod_cons, List.prod_nil, Nat.mul_one, Nat.add_zero]
          rw [Nat.mul_comm]; exact Nat.div_add_mod _ _
        rw [hk, blockAxes_map groups hw, unravel_ravel hbox]
        have hfl : groups.flatten.length = w * groups.length := by
          have := hp2.length_eq
          rw [blockAxes_length, List.length_range] at this
          exact this.symm
        rw [hfl, ← hlen, unblock_blk G hGw, ha, unravel_groups groups G hG]

theorem blocks_ok {w : Nat} {groups : List (List Nat)} {m : List Nat} {a : NDArray (Option Dev)}
    (ha : a.shape = groups.map List.prod) (hw : ∀ t ∈ groups, t.length = w) (hm : 0 < m.prod) (hd : m.prod ∣ a.shape.prod) :
    ∃ e, blocks w groups.length groups m a = .ok e := by
  unfold blocks
  have hfl : groups.flatten.length = w * groups.length := by
    rw [List.length_flatten]
    clear * - hw
    induction groups with
    | nil => rfl
    | cons a l ih =>
      rw [List.map_cons, List.sum_cons, ih (fun t ht => hw t (List.mem_cons_of_mem _ ht)), hw a (List.mem_cons_self ..),
        List.length_cons]; ring
  have h1 : reshape a groups.flatten = some ⟨groups.flatten, fun i => a.get (unravel a.shape (ravel groups.flatten i))⟩ := by
    unfold reshape
    rw [if_pos (by rw [ha, List.prod_flatten])]
  rw [h1]
  dsimp only
  have hperm := blockAxes_perm w groups.length
  rw [← hfl] at hperm
  unfold transpose
  dsimp only
  rw [if_pos hperm]
  dsimp only
  unfold reshapeRows
  dsimp only
  have hpr : (List.map (fun k => groups.flatten.getD k 0) (blockAxes w groups.length)).prod = a.shape.prod := by
    rw [blockAxes_map groups hw, blk_prod groups hw, ha]
  rw [if_neg (by rw [hpr]; rintro (h | h); · omega
                 · exact h (Nat.mod_eq_zero_of_dvd hd))]
  unfold reshape
  dsimp only
  rw [if_pos (by rw [hpr]; simp [Nat.div_mul_cancel hd])]
  exact ⟨_, rfl⟩

end Verif.Mesh
