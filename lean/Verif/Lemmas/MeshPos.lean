import Verif.Lemmas.MeshBlocks
namespace Verif.Mesh
open Verif.ND Verif.Mesh.Spec

/-- The sizes along one axis: global, model-parallel, local. -/
structure Ax where
  g : Nat
  m : Nat
  l : Nat

theorem ravel_inj {s i j : List Nat} (hi : InBox s i) (hj : InBox s j) : ravel s i = ravel s j ↔ i = j :=
  ⟨fun h => by rw [← unravel_ravel hi, h, unravel_ravel hj], fun h => by rw [h]⟩

theorem zw_inBox {ax : List Ax} {x : List Nat} (hx : InBox (ax.map Ax.g) x) (S : Ax → Nat) (F : Ax → Nat → Nat)
    (h : ∀ a ∈ ax, ∀ u, u < a.g → F a u < S a) : InBox (ax.map S) (List.zipWith F ax x) := by
  induction ax generalizing x with
  | nil => cases hx; exact List.Forall₂.nil
  | cons a ax ih =>
    cases hx with
    | cons h1 h2 =>
      exact List.Forall₂.cons (h a (List.mem_cons_self ..) _ h1) (ih h2 (fun b hb => h b (List.mem_cons_of_mem _ hb)))

theorem zw2_iff {β γ δ : Type} {ax : List Ax} {x x' : List Nat} (hx : InBox (ax.map Ax.g) x) (hx' : InBox (ax.map Ax.g) x')
    (F1 : Ax → Nat → β) (F2 : Ax → Nat → γ) (H : Ax → Nat → δ)
    (h : ∀ a ∈ ax, ∀ u v, u < a.g → v < a.g → ((F1 a u = F1 a v ∧ F2 a u = F2 a v) ↔ H a u = H a v)) :
    (List.zipWith F1 ax x = List.zipWith F1 ax x' ∧ List.zipWith F2 ax x = List.zipWith F2 ax x') ↔
      List.zipWith H ax x = List.zipWith H ax x' := by
  induction ax generalizing x x' with
  | nil => simp
  | cons a ax ih =>
    cases hx with
    | cons h1 h2 =>
      cases hx' with
      | cons h3 h4 =>
        have := ih h2 h4 (fun b hb => h b (List.mem_cons_of_mem _ hb))
        have ha := h a (List.mem_cons_self ..) _ _ h1 h3
        simp only [List.zipWith_cons_cons, List.cons.injEq]
        rw [← this, ← ha]
        tauto

/-! Untiled. -/

def Good2 (a : Ax) : Prop := a.m ∣ a.g ∧ 0 < a.m

theorem pos2 {ax : List Ax} {x : List Nat} {a e : NDArray (Option Dev)} (hg : ∀ a ∈ ax, Good2 a) (ha : a.shape = ax.map Ax.g)
    (hx : InBox (ax.map Ax.g) x)
    (hb : blocks 2 ax.length (ax.map (fun a => [a.g / a.m, a.m])) (ax.map Ax.m) a = .ok e) :
    e.get [ravel (ax.map (fun a => a.g / a.m)) (List.zipWith (fun a u => u / a.m) ax x),
      ravel (ax.map Ax.m) (List.zipWith (fun a u => u % a.m) ax x)] = a.get x := by
  have h1 : (ax.map (fun a => [a.g / a.m, a.m])).map List.prod = ax.map Ax.g := by
    rw [List.map_map]
    apply List.map_congr_left
    intro b hb
    simp [Nat.div_mul_cancel (hg b hb).1]
  have h2 : List.Forall₂ InBox (ax.map (fun a => [a.g / a.m, a.m])) (List.zipWith (fun a u => [u / a.m, u % a.m]) ax x) ∧
      List.zipWith ravel (ax.map (fun a => [a.g / a.m, a.m])) (List.zipWith (fun a u => [u / a.m, u % a.m]) ax x) = x := by
    clear ha hb h1
    induction ax generalizing x with
    | nil => cases hx; exact ⟨List.Forall₂.nil, rfl⟩
    | cons b ax ih =>
      cases hx with
      | @cons u _ xs _ h3 h4 =>
        obtain ⟨h5, h6⟩ := ih (fun b hb => hg b (List.mem_cons_of_mem _ hb)) h4
        obtain ⟨hd, hp⟩ := hg b (List.mem_cons_self ..)
        refine ⟨List.Forall₂.cons (List.Forall₂.cons (Nat.div_lt_div_of_lt_of_dvd hd h3) (List.Forall₂.cons (Nat.mod_lt _ hp) List.Forall₂.nil)) h5, ?_⟩
        simp only [List.map_cons, List.zipWith_cons_cons, h6]
        simp only [ravel, List.prod_cons, List.prod_nil, Nat.mul_one, Nat.add_zero, List.cons.injEq, and_true]
        rw [Nat.mul_comm]; exact Nat.div_add_mod _ _
  have h3 : blk 2 (ax.map (fun a => [a.g / a.m, a.m])) = ax.map (fun a => a.g / a.m) ++ ax.map Ax.m := by
    simp [blk, List.range_succ, List.map_map, Function.comp_def]
  have h4 : blk 2 (List.zipWith (fun a u => [u / a.m, u % a.m]) ax x) =
      List.zipWith (fun a u => u / a.m) ax x ++ List.zipWith (fun a u => u % a.m) ax x := by
    simp [blk, List.range_succ, List.map_zipWith]
  have hb' : blocks 2 (ax.map (fun a => [a.g / a.m, a.m])).length (ax.map (fun a => [a.g / a.m, a.m])) (ax.map Ax.m) a = .ok e := by
    rw [List.length_map]; exact hb
  have := (blocks_get (ha.trans h1.symm) (by simp) h2.1 hb').2
  rw [h2.2, h3, h4, ravel_append (by simp [hx.length])] at this
  have hlt := ravel_lt (zw_inBox hx Ax.m (fun a u => u % a.m) (fun b hb u _ => Nat.mod_lt _ (hg b hb).2))
  rw [Nat.add_comm, Nat.add_mul_div_right _ _ (by omega), Nat.div_eq_of_lt hlt, Nat.zero_add, Nat.add_mul_mod_self_right,
    Nat.mod_eq_of_lt hlt] at this
  exact this

/-! Tiled by hosts. -/

def Good4 (a : Ax) : Prop := a.m ∣ a.g ∧ a.l ∣ a.g ∧ 0 < a.m ∧ 0 < a.l ∧ (a.m ≥ a.l → a.l ∣ a.m) ∧ (a.m < a.l → a.m ∣ a.l)

def Ax.dh (a : Ax) : Nat := if a.m ≥ a.l then a.g / a.m else a.g / a.m / (a.l / a.m)
def Ax.dd (a : Ax) : Nat := if a.m ≥ a.l then 1 else a.l / a.m
def Ax.mh (a : Ax) : Nat := if a.m ≥ a.l then a.m / a.l else 1
def Ax.md (a : Ax) : Nat := if a.m ≥ a.l then a.l else a.m

theorem Good4.facts {a : Ax} (h : Good4 a) :
    a.dh * a.dd * a.m = a.g ∧ a.mh * a.md = a.m ∧ a.dd * a.md = a.l ∧ 0 < a.dd ∧ 0 < a.md ∧ 0 < a.mh ∧
    dhddmhmd a.g a.m a.l = some [a.dh, a.dd, a.mh, a.md] := by
  obtain ⟨h1, h2, h3, h4, h5, h6⟩ := h
  unfold Ax.dh Ax.dd Ax.mh Ax.md dhddmhmd
  by_cases hc : a.m ≥ a.l
  · simp only [if_pos hc, Nat.mul_one]
    refine ⟨Nat.div_mul_cancel h1, Nat.div_mul_cancel (h5 hc), by omega, by omega, h4, Nat.div_pos hc h4, ?_⟩
    rw [if_neg (by simp [Nat.mod_eq_zero_of_dvd (h5 hc)])]
  · have hd := h6 (by omega)
    simp only [if_neg hc]
    have h7 : 0 < a.l / a.m := Nat.div_pos (by omega) h3
    have h8 : a.l / a.m ∣ a.g / a.m := Nat.div_dvd_div hd h2
    refine ⟨?_, by omega, Nat.div_mul_cancel hd, h7, h3, by omega, ?_⟩
    · rw [Nat.div_mul_cancel h8, Nat.div_mul_cancel h1]
    · rw [if_neg (by simp [Nat.mod_eq_zero_of_dvd hd])]

/-- The four digits of a coordinate. -/
def Ax.xdh (a : Ax) (u : Nat) : Nat := u / a.m / a.dd
def Ax.xdd (a : Ax) (u : Nat) : Nat := u / a.m % a.dd
def Ax.xmh (a : Ax) (u : Nat) : Nat := u % a.m / a.md
def Ax.xmd (a : Ax) (u : Nat) : Nat := u % a.m % a.md

theorem Good4.digits {a : Ax} (h : Good4 a) (u : Nat) (hu : u < a.g) :
    a.xdh u < a.dh ∧ a.xdd u < a.dd ∧ a.xmh u < a.mh ∧ a.xmd u < a.md ∧
    ((a.xdh u * a.dd + a.xdd u) * a.mh + a.xmh u) * a.md + a.xmd u = u ∧ u / a.l = a.xdh u * a.mh + a.xmh u := by
  obtain ⟨f1, f2, f3, f4, f5, f6, _⟩ := h.facts
  obtain ⟨h1, h2, h3, h4, h5, h6⟩ := h
  refine ⟨?_, Nat.mod_lt _ f4, ?_, Nat.mod_lt _ f5, ?_, ?_⟩
  · unfold Ax.xdh
    rw [Nat.div_div_eq_div_mul]
    apply Nat.div_lt_of_lt_mul
    rw [show a.m * a.dd * a.dh = a.dh * a.dd * a.m by ring, f1]; exact hu
  · unfold Ax.xmh
    apply Nat.div_lt_of_lt_mul
    rw [Nat.mul_comm, f2]; exact Nat.mod_lt _ h3
  · unfold Ax.xdh Ax.xdd Ax.xmh Ax.xmd
    have e1 : u / a.m / a.dd * a.dd + u / a.m % a.dd = u / a.m := by rw [Nat.mul_comm]; exact Nat.div_add_mod _ _
    have e2 : u % a.m / a.md * a.md + u % a.m % a.md = u % a.m := by rw [Nat.mul_comm]; exact Nat.div_add_mod _ _
    rw [e1, Nat.add_mul, Nat.mul_assoc, f2, Nat.add_assoc, e2, Nat.mul_comm]
    exact Nat.div_add_mod _ _
  · unfold Ax.xdh Ax.xmh
    by_cases hc : a.m ≥ a.l
    · have e1 : a.dd = 1 := by simp [Ax.dd, hc]
      have e2 : a.md = a.l := by simp [Ax.md, hc]
      rw [e1, e2, Nat.div_one]
      rw [e2] at f2
      conv_lhs => rw [← Nat.div_add_mod u a.m, ← f2]
      rw [show a.mh * a.l * (u / (a.mh * a.l)) + u % (a.mh * a.l) = u % (a.mh * a.l) + a.l * (a.mh * (u / (a.mh * a.l))) by ring,
        Nat.add_mul_div_left _ _ h4, f2]
      ring
    · have e1 : a.mh = 1 := by simp [Ax.mh, hc]
      have e2 : a.md = a.m := by simp [Ax.md, hc]
      rw [e1, e2, Nat.div_div_eq_div_mul, Nat.mul_one]
      rw [e2, Nat.mul_comm] at f3
      rw [f3, Nat.div_eq_of_lt (Nat.mod_lt _ h3)]
      rfl

theorem pos4 {ax : List Ax} {x : List Nat} {a e : NDArray (Option Dev)} (hg : ∀ a ∈ ax, Good4 a) (ha : a.shape = ax.map Ax.g)
    (hx : InBox (ax.map Ax.g) x)
    (hb : blocks 4 ax.length (ax.map (fun a => [a.dh, a.dd, a.mh, a.md])) (ax.map Ax.m) a = .ok e) :
    e.get [ravel (ax.map Ax.dh ++ ax.map Ax.dd) (List.zipWith Ax.xdh ax x ++ List.zipWith Ax.xdd ax x),
      ravel (ax.map Ax.mh ++ ax.map Ax.md) (List.zipWith Ax.xmh ax x ++ List.zipWith Ax.xmd ax x)] = a.get x := by
  have h1 : (ax.map (fun a => [a.dh, a.dd, a.mh, a.md])).map List.prod = ax.map Ax.g := by
    rw [List.map_map]
    apply List.map_congr_left
    intro b hb
    obtain ⟨f1, f2, _⟩ := (hg b hb).facts
    simp only [Function.comp_apply, List.prod_cons, List.prod_nil, Nat.mul_one]
    rw [← f1, ← f2]; ring
  have hM : (ax.map Ax.mh ++ ax.map Ax.md).prod = (ax.map Ax.m).prod := by
    rw [List.prod_append, ← List.prod_map_mul]
    congr 1
    apply List.map_congr_left
    intro b hb
    exact (hg b hb).facts.2.1
  have h2 : List.Forall₂ InBox (ax.map (fun a => [a.dh, a.dd, a.mh, a.md]))
      (List.zipWith (fun a u => [a.xdh u, a.xdd u, a.xmh u, a.xmd u]) ax x) ∧
      List.zipWith ravel (ax.map (fun a => [a.dh, a.dd, a.mh, a.md]))
        (List.zipWith (fun a u => [a.xdh u, a.xdd u, a.xmh u, a.xmd u]) ax x) = x := by
    clear ha hb h1 hM
    induction ax generalizing x with
    | nil => cases hx; exact ⟨List.Forall₂.nil, rfl⟩
    | cons b ax ih =>
      cases hx with
      | @cons u _ xs _ h3 h4 =>
        obtain ⟨h5, h6⟩ := ih (fun b hb => hg b (List.mem_cons_of_mem _ hb)) h4
        obtain ⟨d1, d2, d3, d4, d5, _⟩ := (hg b (List.mem_cons_self ..)).digits u h3
        refine ⟨List.Forall₂.cons (List.Forall₂.cons d1 (List.Forall₂.cons d2 (List.Forall₂.cons d3
          (List.Forall₂.cons d4 List.Forall₂.nil)))) h5, ?_⟩
        simp only [List.map_cons, List.zipWith_cons_cons, h6]
        simp only [ravel, List.prod_cons, List.prod_nil, Nat.mul_one, Nat.add_zero, List.cons.injEq, and_true]
        conv_rhs => rw [← d5]
        ring
  have h3 : blk 4 (ax.map (fun a => [a.dh, a.dd, a.mh, a.md])) = (ax.map Ax.dh ++ ax.map Ax.dd) ++ (ax.map Ax.mh ++ ax.map Ax.md) := by
    simp [blk, List.range_succ, List.map_map, Function.comp_def]
  have h4 : blk 4 (List.zipWith (fun a u => [a.xdh u, a.xdd u, a.xmh u, a.xmd u]) ax x) =
      (List.zipWith Ax.xdh ax x ++ List.zipWith Ax.xdd ax x) ++ (List.zipWith Ax.xmh ax x ++ List.zipWith Ax.xmd ax x) := by
    simp [blk, List.range_succ, List.map_zipWith]
  have hb' : blocks 4 (ax.map (fun a => [a.dh, a.dd, a.mh, a.md])).length (ax.map (fun a => [a.dh, a.dd, a.mh, a.md]))
      (ax.map Ax.m) a = .ok e := by
    rw [List.length_map]; exact hb
  have := (blocks_get (ha.trans h1.symm) (by simp) h2.1 hb').2
  rw [h2.2, h3, h4, ravel_append (by simp [hx.length]), hM] at this
  have hlt := ravel_lt (InBox.append (zw_inBox hx Ax.mh Ax.xmh (fun b hb u hu => ((hg b hb).digits u hu).2.2.1))
    (zw_inBox hx Ax.md Ax.xmd (fun b hb u hu => ((hg b hb).digits u hu).2.2.2.1)))
  rw [hM] at hlt
  rw [Nat.add_comm, Nat.add_mul_div_right _ _ (by omega), Nat.div_eq_of_lt hlt, Nat.zero_add, Nat.add_mul_mod_self_right,
    Nat.mod_eq_of_lt hlt] at this
  exact this

end Verif.Mesh
