import Verif.Model.WeightMetrics
import Mathlib.Tactic.FieldSimp
/-
C86: the metrics about weights.
-/
namespace Verif.WeightMetrics

namespace Spec

/-- `v` is the root of the mean of the squares of `l`. -/
def IsRms (l : List ℝ) (v : ℝ) : Prop := 0 ≤ v ∧ v ^ 2 * l.length = (l.map fun x => x ^ 2).sum

/-- `m` is the largest absolute value in `l`. -/
def IsMaxAbs (l : List ℝ) (m : ℝ) : Prop := (∃ x ∈ l, |x| = m) ∧ ∀ x ∈ l, |x| ≤ m

/-- Two trees of the same names and sizes. -/
def Same (a b : Tree ℝ) : Prop := ∀ k, (PyDict.get a k).map List.length = (PyDict.get b k).map List.length

/-- The names of the metrics that exist per parameter. -/
def perParam : List Name := ["weight_rms".toList, "weight_gradient_rms".toList, "weight_update_rms".toList,
  "weight_update_divided_by_weight_rms".toList, "weight_max".toList]

end Spec
open Spec

theorem key_inj (n n' k k' : Name) (h : '/' ∉ n) (h' : '/' ∉ n') (e : key n k = key n' k') : n = n' ∧ k = k' := by
  induction n generalizing n' with
  | nil =>
    cases n' with
    | nil => unfold key at e; simp at e; exact ⟨rfl, e⟩
    | cons c n' =>
      exfalso; unfold key at e
      simp only [List.nil_append, List.cons_append, List.cons.injEq] at e
      exact h' (by rw [e.1]; simp)
  | cons c n ih =>
    cases n' with
    | nil =>
      exfalso; unfold key at e
      simp only [List.nil_append, List.cons_append, List.cons.injEq] at e
      exact h (by rw [e.1]; simp)
    | cons c' n' =>
      unfold key at e ih
      simp only [List.cons_append, List.cons.injEq] at e
      obtain ⟨h1, h2⟩ := ih n' (fun q => h (by simp [q])) (fun q => h' (by simp [q])) e.2
      exact ⟨by rw [e.1, h1], h2⟩

theorem get_keyed {α β : Type} (name : Name) (f : α → β) (t : List (Name × α)) (ht : PyDict.WF t) (hn : '/' ∉ name) :
    PyDict.WF (t.map fun e => (key name e.1, f e.2)) ∧
    (∀ k, PyDict.get (t.map fun e => (key name e.1, f e.2)) (key name k) = (PyDict.get t k).map f) ∧
    ∀ q, (∀ k, q ≠ key name k) → PyDict.get (t.map fun e => (key name e.1, f e.2)) q = none := by
  refine ⟨?_, ?_, ?_⟩
  · unfold PyDict.WF PyDict.keys at ht ⊢
    rw [List.map_map]
    have : (Prod.fst ∘ fun e : Name × α => (key name e.1, f e.2)) = key name ∘ Prod.fst := rfl
    rw [this, ← List.map_map]
    exact ht.map (fun a b e => (key_inj name name a b hn hn e).2)
  · intro k
    clear ht
    induction t with
    | nil => rfl
    | cons e t ih =>
      simp only [List.map_cons, PyDict.get]
      by_cases h : e.1 = k
      · rw [if_pos (by rw [h]), if_pos h]; rfl
      · rw [if_neg (fun q => h (key_inj _ _ _ _ hn hn q).2), if_neg h]; exact ih
  · intro q hq
    rw [PyDict.get_eq_none_iff]
    intro hm
    unfold PyDict.keys at hm
    rw [List.map_map] at hm
    obtain ⟨e, -, he⟩ := List.mem_map.1 hm
    exact hq e.1 he.symm

theorem get_nil_update {β : Type} (e : List (Name × β)) (he : PyDict.WF e) (k : Name) : PyDict.get (PyDict.update [] e) k = PyDict.get e k := by
  rw [PyDict.get_update _ _ he]
  cases PyDict.get e k <;> rfl

theorem makeRms_ok (name : Name) (t : Tree (Option ℝ)) (ht : PyDict.WF t) (hn : '/' ∉ name) :
    PyDict.WF (makeRms name t) ∧ (∀ k, PyDict.get (makeRms name t) (key name k) = (PyDict.get t k).map rms) ∧
    ∀ q, (∀ k, q ≠ key name k) → PyDict.get (makeRms name t) q = none := by
  obtain ⟨h1, h2, h3⟩ := get_keyed name rms t ht hn
  unfold makeRms
  refine ⟨PyDict.wf_update _ _ (by simp [PyDict.WF, PyDict.keys]), ?_, ?_⟩
  · intro k; rw [get_nil_update _ h1, h2]
  · intro q hq; rw [get_nil_update _ h1, h3 q hq]

theorem maxAbs_ok (l : List ℝ) (hl : l ≠ []) : ∃ m, maxAbs l = .ok m ∧ IsMaxAbs l m := by
  cases l with
  | nil => exact absurd rfl hl
  | cons x l =>
    refine ⟨_, rfl, ?_⟩
    clear hl
    induction l using List.reverseRecOn with
    | nil => exact ⟨⟨x, by simp, rfl⟩, by simp⟩
    | append_singleton l y ih =>
      rw [List.foldl_append]
      show IsMaxAbs _ (max _ |y|)
      generalize l.foldl (fun m y => max m |y|) |x| = m at ih
      obtain ⟨⟨z, hz, hzm⟩, hall⟩ := ih
      refine ⟨?_, ?_⟩
      · rcases le_total m |y| with h | h
        · exact ⟨y, by simp, by rw [max_eq_right h]⟩
        · refine ⟨z, ?_, by rw [max_eq_left h, hzm]⟩
          simp only [List.mem_cons, List.mem_append] at hz ⊢
          tauto
      · intro w hw
        have : w ∈ x :: l ∨ w = y := by
          simp only [List.mem_cons, List.mem_append, List.not_mem_nil, or_false] at hw ⊢
          tauto
        rcases this with h | rfl
        · exact le_trans (hall w h) (le_max_left _ _)
        · exact le_max_right _ _

theorem maxItems_ok (name : Name) (t : Tree ℝ) (h : ∀ e ∈ t, e.2 ≠ []) :
    ∃ f : List ℝ → ℝ, maxItems name t = .ok (t.map fun e => (key name e.1, some (f e.2))) ∧ ∀ e ∈ t, IsMaxAbs e.2 (f e.2) := by
  refine ⟨fun l => match maxAbs l with | .ok m => m | .error _ => 0, ?_, ?_⟩
  · induction t with
    | nil => rfl
    | cons e t ih =>
      obtain ⟨k, v⟩ := e
      obtain ⟨m, hm, -⟩ := maxAbs_ok v (h (k, v) (by simp))
      simp only [maxItems]
      rw [hm, ih (fun e he => h e (List.mem_cons_of_mem _ he))]
      simp only [List.map_cons, hm]
  · intro e he
    obtain ⟨m, hm, hi⟩ := maxAbs_ok e.2 (h e he)
    simp only [hm]
    exact hi

theorem makeMax_ok (name : Name) (t : Tree ℝ) (ht : PyDict.WF t) (hn : '/' ∉ name) (h : ∀ e ∈ t, e.2 ≠ []) :
    ∃ r, makeMax name t = .ok r ∧ PyDict.WF r ∧
    (∀ k, PyDict.get t k = none → PyDict.get r (key name k) = none) ∧
    (∀ k v, PyDict.get t k = some v → ∃ m, PyDict.get r (key name k) = some (some m) ∧ IsMaxAbs v m) ∧
    ∀ q, (∀ k, q ≠ key name k) → PyDict.get r q = none := by
  obtain ⟨f, h1, h2⟩ := maxItems_ok name t h
  obtain ⟨g1, g2, g3⟩ := get_keyed name (fun v => some (f v)) t ht hn
  unfold makeMax
  rw [h1]
  refine ⟨_, rfl, PyDict.wf_update _ _ (by simp [PyDict.WF, PyDict.keys]), ?_, ?_, ?_⟩
  · intro k hk; rw [get_nil_update _ g1, g2, hk]; rfl
  · intro k v hk
    refine ⟨f v, ?_, h2 (k, v) (PyDict.mem_of_get t k v hk)⟩
    rw [get_nil_update _ g1, g2, hk]; rfl
  · intro q hq; rw [get_nil_update _ g1, g3 q hq]

theorem mapLeaves_ok {α β γ : Type} (f : α → β → γ) (a : Tree α) (b : Tree β)
    (h : ∀ e ∈ a, ∃ w, PyDict.get b e.1 = some w ∧ e.2.length = w.length) :
    ∃ t, mapLeaves f a b = .ok t ∧ PyDict.keys t = PyDict.keys a ∧
      ∀ k v, PyDict.get a k = some v → ∃ w, PyDict.get b k = some w ∧ PyDict.get t k = some (List.zipWith f v w) := by
  induction a with
  | nil => exact ⟨[], rfl, rfl, fun k v hk => by cases hk⟩
  | cons e a ih =>
    obtain ⟨k, v⟩ := e
    obtain ⟨w, hw, hl⟩ := h (k, v) (by simp)
    obtain ⟨t, h1, h2, h3⟩ := ih (fun e he => h e (List.mem_cons_of_mem _ he))
    refine ⟨(k, List.zipWith f v w) :: t, ?_, ?_, ?_⟩
    · simp only [mapLeaves]
      rw [hw, h1]
      dsimp only
      rw [if_pos hl]
    · simp only [PyDict.keys, List.map_cons] at h2 ⊢
      rw [h2]
    · intro k' v' hk
      simp only [PyDict.get] at hk ⊢
      by_cases e : k = k'
      · rw [if_pos e] at hk
        cases hk
        exact ⟨w, by rw [← e]; exact hw, by rw [if_pos e]⟩
      · rw [if_neg e] at hk
        obtain ⟨w', q1, q2⟩ := h3 k' v' hk
        exact ⟨w', q1, by rw [if_neg e]; exact q2⟩

theorem treeMap_ok {α β γ : Type} (f : α → β → γ) (a : Tree α) (b : Tree β) (ha : PyDict.WF a)
    (h : ∀ k, (PyDict.get a k).map List.length = (PyDict.get b k).map List.length) :
    ∃ t, treeMap f a b = .ok t ∧ PyDict.keys t = PyDict.keys a ∧
      ∀ k v, PyDict.get a k = some v → ∃ w, PyDict.get b k = some w ∧ v.length = w.length ∧ PyDict.get t k = some (List.zipWith f v w) := by
  have hsub : ∀ k ∈ PyDict.keys b, k ∈ PyDict.keys a := by
    intro k hk
    rw [← PyDict.get_isSome_iff] at hk ⊢
    have := congrArg Option.isSome (h k)
    rw [Option.isSome_map, Option.isSome_map] at this
    rw [this]; exact hk
  have hget : ∀ k v, PyDict.get a k = some v → ∃ w, PyDict.get b k = some w ∧ v.length = w.length := by
    intro k v hk
    have := h k
    rw [hk] at this
    cases hb : PyDict.get b k with
    | none => rw [hb] at this; cases this
    | some w => rw [hb] at this; exact ⟨w, rfl, by simpa using this⟩
  obtain ⟨t, h1, h2, h3⟩ := mapLeaves_ok f a b (fun e he => hget e.1 e.2 (PyDict.get_of_mem a ha e.1 e.2 he))
  refine ⟨t, ?_, h2, ?_⟩
  · unfold treeMap; rw [if_pos hsub, h1]
  · intro k v hk
    obtain ⟨w, q1, q2⟩ := hget k v hk
    obtain ⟨w', q3, q4⟩ := h3 k v hk
    rw [q1] at q3; cases q3
    exact ⟨w, q1, q2, q4⟩

theorem finite_some (l : List ℝ) : finite (l.map some) = some l := by
  induction l with
  | nil => rfl
  | cons x l ih => simp only [List.map_cons, finite, ih]

theorem rms_some (l : List ℝ) (hl : l ≠ []) : ∃ v, rms (l.map some) = some v ∧ IsRms l v := by
  refine ⟨√ ((l.map fun x => x * x).sum / l.length), ?_, Real.sqrt_nonneg _, ?_⟩
  · unfold rms
    rw [finite_some]
    cases l with
    | nil => exact absurd rfl hl
    | cons x l => rfl
  · have hs : 0 ≤ (l.map fun x => x * x).sum := List.sum_nonneg (by
      intro y hy
      obtain ⟨x, -, rfl⟩ := List.mem_map.1 hy
      exact mul_self_nonneg x)
    have hpos : (0 : ℝ) < l.length := by
      have := List.length_pos_iff.2 hl
      exact_mod_cast this
    rw [Real.sq_sqrt (div_nonneg hs hpos.le), div_mul_cancel₀ _ hpos.ne']
    congr 1
    apply List.map_congr_left
    intro x _
    ring

theorem rms_divide (w o : List ℝ) (hl : w.length = o.length) (hne : w ≠ []) :
    ((∀ y ∈ o, y ≠ 0) → ∃ v, rms (List.zipWith divide w o) = some v ∧ IsRms (List.zipWith (fun x y => x / y) w o) v) ∧
    ((∃ y ∈ o, y = 0) → rms (List.zipWith divide w o) = none) := by
  constructor
  · intro hz
    have : List.zipWith divide w o = (List.zipWith (fun x y => x / y) w o).map some := by
      clear hne hl
      induction w generalizing o with
      | nil => rfl
      | cons x w ih =>
        cases o with
        | nil => rfl
        | cons y o =>
          simp only [List.zipWith_cons_cons, List.map_cons]
          rw [ih o (fun y hy => hz y (List.mem_cons_of_mem _ hy))]
          unfold divide
          rw [if_neg (hz y (by simp))]
    rw [this]
    refine rms_some _ ?_
    intro h
    have h0 := congrArg List.length h
    rw [List.length_zipWith, ← hl, Nat.min_self] at h0
    exact hne (List.length_eq_zero_iff.1 h0)
  · rintro ⟨y, hy, rfl⟩
    have : finite (List.zipWith divide w o) = none := by
      clear hne
      induction w generalizing o with
      | nil => cases o with
        | nil => cases hy
        | cons y o => cases hl
      | cons x w ih =>
        cases o with
        | nil => cases hl
        | cons y o =>
          simp only [List.zipWith_cons_cons]
          by_cases h : y = 0
          · unfold divide; rw [if_pos h]; rfl
          · have e : divide x y = some (x / y) := by unfold divide; rw [if_neg h]
            rw [e]
            have hm : (0 : ℝ) ∈ o := by
              rcases List.mem_cons.1 hy with q | q
              · exact absurd q.symm h
              · exact q
            simp only [finite]
            rw [ih o (by simpa using hl) hm]
    unfold rms
    rw [this]

theorem get_lift (t : Tree ℝ) (k : Name) : PyDict.get (lift t) k = (PyDict.get t k).map (List.map some) := by
  unfold lift
  induction t with
  | nil => rfl
  | cons e t ih =>
    simp only [List.map_cons, PyDict.get]
    split_ifs
    · rfl
    · exact ih

theorem wf_lift (t : Tree ℝ) (h : PyDict.WF t) : PyDict.WF (lift t) := by
  unfold lift PyDict.WF PyDict.keys at *
  rw [List.map_map]
  exact h

/-- **C86** For trees of the same names and sizes without empty arrays the metrics are: for every parameter the root mean square of the
new weights, of the gradient, of the update, and of the update divided by the old weights, and the largest new weight; and one norm of
the whole gradient.  There is no other metric and none is overwritten. -/
theorem C86_metrics (grads old new : Tree ℝ) (hg : PyDict.WF grads) (hn : PyDict.WF new) (hgs : Same grads new) (hos : Same old new)
    (hne : ∀ e ∈ new, e.2 ≠ []) :
    ∃ r, computeMetrics grads old new = .ok r ∧
      (∃ n, PyDict.get r "weight_gradient_norm".toList = some (some n) ∧ 0 ≤ n ∧
        n ^ 2 = (grads.map fun e => (e.2.map fun x => x ^ 2).sum).sum) ∧
      (∀ k w, PyDict.get new k = some w → ∃ o g, PyDict.get old k = some o ∧ PyDict.get grads k = some g ∧
        (∃ v, PyDict.get r (key "weight_rms".toList k) = some (some v) ∧ IsRms w v) ∧
        (∃ v, PyDict.get r (key "weight_gradient_rms".toList k) = some (some v) ∧ IsRms g v) ∧
        (∃ v, PyDict.get r (key "weight_update_rms".toList k) = some (some v) ∧ IsRms (List.zipWith (fun x y => x - y) w o) v) ∧
        ((∀ y ∈ o, y ≠ 0) → ∃ v, PyDict.get r (key "weight_update_divided_by_weight_rms".toList k) = some (some v) ∧
          IsRms (List.zipWith (fun x y => (x - y) / y) w o) v) ∧
        ((∃ y ∈ o, y = 0) → PyDict.get r (key "weight_update_divided_by_weight_rms".toList k) = some none) ∧
        (∃ v, PyDict.get r (key "weight_max".toList k) = some (some v) ∧ IsMaxAbs w v)) ∧
      (∀ q, (PyDict.get r q).isSome → q = "weight_gradient_norm".toList ∨ ∃ p ∈ perParam, ∃ k ∈ PyDict.keys new, q = key p k) := by
  have hd : perParam.Nodup := by decide
  have hs : ∀ p ∈ perParam, '/' ∉ p := by decide
  have hN : '/' ∉ "weight_gradient_norm".toList := by decide
  unfold computeMetrics
  unfold perParam at hd hs ⊢
  generalize "weight_rms".toList = p1 at *
  generalize "weight_gradient_rms".toList = p2 at *
  generalize "weight_update_rms".toList = p3 at *
  generalize "weight_update_divided_by_weight_rms".toList = p4 at *
  generalize "weight_max".toList = p5 at *
  generalize "weight_gradient_norm".toList = N at *
  have hk : ∀ p p' k k', p ∈ [p1, p2, p3, p4, p5] → p' ∈ [p1, p2, p3, p4, p5] → p ≠ p' → key p k ≠ key p' k' :=
    fun p p' k k' h h' hne e => hne (key_inj p p' k k' (hs p h) (hs p' h') e).1
  have hNk : ∀ p k, N ≠ key p k := by
    intro p k e
    exact hN (by rw [e]; simp [key])
  have hos' : ∀ k, (PyDict.get new k).map List.length = (PyDict.get old k).map List.length := fun k => (hos k).symm
  obtain ⟨upd, u1, u2, u3⟩ := treeMap_ok (fun x y : ℝ => x - y) new old hn hos'
  have hu : PyDict.WF upd := by unfold PyDict.WF; rw [u2]; exact hn
  have hus : ∀ k, (PyDict.get upd k).map List.length = (PyDict.get old k).map List.length := by
    intro k
    rw [← hos' k]
    cases hk : PyDict.get new k with
    | none =>
      have : PyDict.get upd k = none := by
        rw [PyDict.get_eq_none_iff, u2, ← PyDict.get_eq_none_iff]; exact hk
      rw [this]
    | some w =>
      obtain ⟨o, -, q2, q3⟩ := u3 k w hk
      rw [q3]
      simp only [Option.map_some, List.length_zipWith, q2, Nat.min_self]
  obtain ⟨rel, r1, r2, r3⟩ := treeMap_ok divide upd old hu hus
  have hr : PyDict.WF rel := by unfold PyDict.WF; rw [r2]; exact hu
  obtain ⟨a1, a2, a3⟩ := makeRms_ok p1 (lift new) (wf_lift _ hn) (hs p1 (by simp))
  obtain ⟨b1, b2, b3⟩ := makeRms_ok p2 (lift grads) (wf_lift _ hg) (hs p2 (by simp))
  obtain ⟨c1, c2, c3⟩ := makeRms_ok p3 (lift upd) (wf_lift _ hu) (hs p3 (by simp))
  obtain ⟨d1, d2, d3⟩ := makeRms_ok p4 rel hr (hs p4 (by simp))
  obtain ⟨mx, e0, e1, e2, e3, e4⟩ := makeMax_ok p5 new hn (hs p5 (by simp)) hne
  rw [u1]
  dsimp only
  rw [r1]
  dsimp only
  rw [e0]
  have hget : ∀ q, PyDict.get (PyDict.update (PyDict.update (PyDict.update (PyDict.update (PyDict.update (PyDict.update [] (makeRms p1 (lift new)))
      (makeRms p2 (lift grads))) [(N, some (gradNorm grads))]) (makeRms p3 (lift upd))) (makeRms p4 rel)) mx) q =
      (PyDict.get mx q).or ((PyDict.get (makeRms p4 rel) q).or ((PyDict.get (makeRms p3 (lift upd)) q).or
        ((PyDict.get [(N, some (gradNorm grads))] q).or ((PyDict.get (makeRms p2 (lift grads)) q).or
          (PyDict.get (makeRms p1 (lift new)) q))))) := by
    intro q
    rw [PyDict.get_update _ _ e1, PyDict.get_update _ _ d1, PyDict.get_update _ _ c1,
      PyDict.get_update _ _ (by simp [PyDict.WF, PyDict.keys]), PyDict.get_update _ _ b1, get_nil_update _ a1]
  have hNget : ∀ p k, PyDict.get [(N, some (gradNorm grads))] (key p k) = none := by
    intro p k
    rw [PyDict.get, if_neg (hNk p k)]; rfl
  simp only [List.nodup_cons, List.mem_cons, List.not_mem_nil, or_false, not_or, List.nodup_nil, not_false_eq_true, and_true] at hd
  obtain ⟨⟨n12, n13, n14, n15⟩, ⟨n23, n24, n25⟩, ⟨n34, n35⟩, n45⟩ := hd
  refine ⟨_, rfl, ?_, ?_, ?_⟩
  · refine ⟨gradNorm grads, ?_, Real.sqrt_nonneg _, ?_⟩
    · rw [hget, e4 N (hNk _), d3 N (hNk _), c3 N (hNk _), PyDict.get, if_pos rfl]; rfl
    · unfold gradNorm
      rw [Real.sq_sqrt]
      · congr 1
        apply List.map_congr_left
        intro e _
        congr 1
        apply List.map_congr_left
        intro x _
        ring
      · apply List.sum_nonneg
        intro y hy
        obtain ⟨e, -, rfl⟩ := List.mem_map.1 hy
        apply List.sum_nonneg
        intro z hz
        obtain ⟨x, -, rfl⟩ := List.mem_map.1 hz
        exact mul_self_nonneg x
  · intro k w hw
    obtain ⟨o, q1, q2, q3⟩ := u3 k w hw
    have hwne : w ≠ [] := hne (k, w) (PyDict.mem_of_get new k w hw)
    have hune : List.zipWith (fun x y : ℝ => x - y) w o ≠ [] := by
      intro h
      have h0 := congrArg List.length h
      rw [List.length_zipWith, ← q2, Nat.min_self] at h0
      exact hwne (List.length_eq_zero_iff.1 h0)
    obtain ⟨g, hgk, hgl⟩ : ∃ g, PyDict.get grads k = some g ∧ g.length = w.length := by
      have := hgs k
      rw [hw] at this
      cases hgk : PyDict.get grads k with
      | none => rw [hgk] at this; cases this
      | some g => rw [hgk] at this; exact ⟨g, rfl, by simpa using this⟩
    have hgne : g ≠ [] := by
      rintro rfl
      exact hwne (List.length_eq_zero_iff.1 hgl.symm)
    refine ⟨o, g, q1, hgk, ?_, ?_, ?_, ?_, ?_, ?_⟩
    · obtain ⟨v, h1, h2⟩ := rms_some w hwne
      refine ⟨v, ?_, h2⟩
      rw [hget, e4 _ (fun k' => hk _ _ _ _ (by simp) (by simp) n15), d3 _ (fun k' => hk _ _ _ _ (by simp) (by simp) n14),
        c3 _ (fun k' => hk _ _ _ _ (by simp) (by simp) n13), hNget, b3 _ (fun k' => hk _ _ _ _ (by simp) (by simp) n12), a2, get_lift, hw]
      simp only [Option.map_some, h1]; rfl
    · obtain ⟨v, h1, h2⟩ := rms_some g hgne
      refine ⟨v, ?_, h2⟩
      rw [hget, e4 _ (fun k' => hk _ _ _ _ (by simp) (by simp) n25), d3 _ (fun k' => hk _ _ _ _ (by simp) (by simp) n24),
        c3 _ (fun k' => hk _ _ _ _ (by simp) (by simp) n23), hNget, b2, get_lift, hgk]
      simp only [Option.map_some, h1]; rfl
    · obtain ⟨v, h1, h2⟩ := rms_some _ hune
      refine ⟨v, ?_, h2⟩
      rw [hget, e4 _ (fun k' => hk _ _ _ _ (by simp) (by simp) n35), d3 _ (fun k' => hk _ _ _ _ (by simp) (by simp) n34),
        c2, get_lift, q3]
      simp only [Option.map_some, h1]; rfl
    · intro hz
      obtain ⟨o', s1, s2, s3⟩ := r3 k _ q3
      rw [q1] at s1; cases s1
      obtain ⟨v, h1, h2⟩ := (rms_divide _ o s2 hune).1 hz
      refine ⟨v, ?_, ?_⟩
      · rw [hget, e4 _ (fun k' => hk _ _ _ _ (by simp) (by simp) n45), d2, s3]
        simp only [Option.map_some, h1]; rfl
      · have : List.zipWith (fun x y : ℝ => x / y) (List.zipWith (fun x y => x - y) w o) o = List.zipWith (fun x y => (x - y) / y) w o := by
          clear * -
          induction w generalizing o with
          | nil => rfl
          | cons x w ih => cases o with
            | nil => rfl
            | cons y o => simp only [List.zipWith_cons_cons, ih]
        rw [← this]; exact h2
    · intro hz
      obtain ⟨o', s1, s2, s3⟩ := r3 k _ q3
      rw [q1] at s1; cases s1
      have h1 := (rms_divide _ o s2 hune).2 hz
      rw [hget, e4 _ (fun k' => hk _ _ _ _ (by simp) (by simp) n45), d2, s3]
      simp only [Option.map_some, h1]; rfl
    · obtain ⟨m, h1, h2⟩ := e3 k w hw
      exact ⟨m, by rw [hget, h1]; rfl, h2⟩
  · intro q hq
    by_contra hc
    push Not at hc
    obtain ⟨hcN, hc⟩ := hc
    have hkeys : ∀ k, k ∉ PyDict.keys new → PyDict.get new k = none ∧ PyDict.get grads k = none ∧ PyDict.get upd k = none ∧ PyDict.get rel k = none := by
      intro k hkn
      have hnk : PyDict.get new k = none := by rw [PyDict.get_eq_none_iff]; exact hkn
      refine ⟨hnk, ?_, ?_, ?_⟩
      · have := hgs k
        rw [hnk] at this
        cases hgk : PyDict.get grads k with
        | none => rfl
        | some g => rw [hgk] at this; cases this
      · rw [PyDict.get_eq_none_iff, u2]; exact hkn
      · rw [PyDict.get_eq_none_iff, r2, u2]; exact hkn
    have hone : ∀ (d : List (Name × Option ℝ)) p, p ∈ [p1, p2, p3, p4, p5] → (∀ k, k ∉ PyDict.keys new → PyDict.get d (key p k) = none) →
        (∀ q, (∀ k, q ≠ key p k) → PyDict.get d q = none) → PyDict.get d q = none := by
      intro d p hp h1 h2
      by_cases hx : ∃ k, q = key p k
      · obtain ⟨k, rfl⟩ := hx
        exact h1 k (fun hkn => hc p hp k hkn rfl)
      · push Not at hx
        exact h2 q hx
    rw [hget, hone mx p5 (by simp) (fun k hkn => e2 k (hkeys k hkn).1) e4,
      hone _ p4 (by simp) (fun k hkn => by rw [d2, (hkeys k hkn).2.2.2]; rfl) d3,
      hone _ p3 (by simp) (fun k hkn => by rw [c2, get_lift, (hkeys k hkn).2.2.1]; rfl) c3,
      hone _ p2 (by simp) (fun k hkn => by rw [b2, get_lift, (hkeys k hkn).2.1]; rfl) b3,
      hone _ p1 (by simp) (fun k hkn => by rw [a2, get_lift, (hkeys k hkn).1]; rfl) a3,
      PyDict.get, if_neg (fun e => hcN e.symm)] at hq
    cases hq

/-! ### Relations between the metrics -/

theorem sq_nonneg_sum (l : List ℝ) : 0 ≤ (l.map fun x => x ^ 2).sum := List.sum_nonneg (by
  intro y hy
  obtain ⟨x, -, rfl⟩ := List.mem_map.1 hy
  exact sq_nonneg x)

theorem cauchy (w o : List ℝ) (hl : w.length = o.length) :
    (List.zipWith (fun x y => x * y) w o).sum ^ 2 ≤ (w.map fun x => x ^ 2).sum * (o.map fun x => x ^ 2).sum := by
  induction w generalizing o with
  | nil => cases o with
    | nil => simp
    | cons y o => cases hl
  | cons x w ih =>
    cases o with
    | nil => cases hl
    | cons y o =>
      simp only [List.zipWith_cons_cons, List.sum_cons, List.map_cons]
      have h := ih o (by simpa using hl)
      have hA := sq_nonneg_sum w
      have hB := sq_nonneg_sum o
      generalize (List.zipWith (fun x y => x * y) w o).sum = S at *
      generalize (w.map fun x => x ^ 2).sum = A at *
      generalize (o.map fun x => x ^ 2).sum = B at *
      have h2 : 2 * (x * y) * S ≤ x ^ 2 * B + y ^ 2 * A := by
        apply le_of_sq_le_sq _ (by positivity)
        have e1 : (2 * (x * y) * S) ^ 2 ≤ 4 * (x ^ 2 * B) * (y ^ 2 * A) := by
          have : (2 * (x * y) * S) ^ 2 = 4 * (x ^ 2 * y ^ 2) * S ^ 2 := by ring
          rw [this]
          have : 4 * (x ^ 2 * B) * (y ^ 2 * A) = 4 * (x ^ 2 * y ^ 2) * (A * B) := by ring
          rw [this]
          exact mul_le_mul_of_nonneg_left h (by positivity)
        nlinarith [sq_nonneg (x ^ 2 * B - y ^ 2 * A)]
      nlinarith

theorem sub_sum (w o : List ℝ) (hl : w.length = o.length) :
    ((List.zipWith (fun x y => x - y) w o).map fun x => x ^ 2).sum =
      (w.map fun x => x ^ 2).sum - 2 * (List.zipWith (fun x y => x * y) w o).sum + (o.map fun x => x ^ 2).sum := by
  induction w generalizing o with
  | nil => cases o with
    | nil => simp
    | cons y o => cases hl
  | cons x w ih =>
    cases o with
    | nil => cases hl
    | cons y o =>
      simp only [List.zipWith_cons_cons, List.sum_cons, List.map_cons]
      rw [ih o (by simpa using hl)]
      ring

theorem rms_triangle (w o : List ℝ) (hl : w.length = o.length) (hne : w ≠ []) (a b c : ℝ) (ha : IsRms w a) (hb : IsRms o b)
    (hc : IsRms (List.zipWith (fun x y => x - y) w o) c) : |a - b| ≤ c := by
  obtain ⟨a0, ha⟩ := ha
  obtain ⟨b0, hb⟩ := hb
  obtain ⟨c0, hc⟩ := hc
  have hn : (0 : ℝ) < w.length := by
    have := List.length_pos_iff.2 hne
    exact_mod_cast this
  rw [sub_sum w o hl, ← ha, ← hb, List.length_zipWith, ← hl, Nat.min_self] at hc
  have hcs := cauchy w o hl
  rw [← ha, ← hb, ← hl] at hcs
  generalize (List.zipWith (fun x y => x * y) w o).sum = S at *
  generalize (w.length : ℝ) = n at *
  have hS : S ≤ a * b * n := by
    apply le_of_sq_le_sq _ (by positivity)
    calc S ^ 2 ≤ _ := hcs
      _ = (a * b * n) ^ 2 := by ring
  have : (a - b) ^ 2 ≤ c ^ 2 := by
    have : (a - b) ^ 2 * n ≤ c ^ 2 * n := by nlinarith
    exact le_of_mul_le_mul_right this hn
  exact abs_le_of_sq_le_sq' this c0 |> abs_le.2

theorem rms_le_max (w : List ℝ) (hne : w ≠ []) (a m : ℝ) (ha : IsRms w a) (hm : IsMaxAbs w m) : a ≤ m ∧ m ^ 2 ≤ a ^ 2 * w.length := by
  obtain ⟨a0, ha⟩ := ha
  obtain ⟨⟨x, hx, hxm⟩, hall⟩ := hm
  have m0 : 0 ≤ m := by rw [← hxm]; exact abs_nonneg x
  have hn : (0 : ℝ) < w.length := by
    have := List.length_pos_iff.2 hne
    exact_mod_cast this
  constructor
  · apply le_of_sq_le_sq _ m0
    have : (w.map fun x => x ^ 2).sum ≤ m ^ 2 * w.length := by
      clear ha hx hne hn
      induction w with
      | nil => simp
      | cons y w ih =>
        have h1 := ih (fun x hx => hall x (List.mem_cons_of_mem _ hx))
        have h2 := hall y (by simp)
        have h3 : y ^ 2 ≤ m ^ 2 := by
          rw [← sq_abs y]
          exact pow_le_pow_left₀ (abs_nonneg y) h2 2
        simp only [List.map_cons, List.sum_cons, List.length_cons, Nat.cast_add, Nat.cast_one]
        linarith
    rw [← ha] at this
    exact le_of_mul_le_mul_right this hn
  · rw [ha, ← hxm, sq_abs]
    exact List.single_le_sum (by
      intro y hy
      obtain ⟨z, -, rfl⟩ := List.mem_map.1 hy
      exact sq_nonneg z) _ (List.mem_map.2 ⟨x, hx, rfl⟩)

theorem rms_unique (l : List ℝ) (hne : l ≠ []) (a b : ℝ) (ha : IsRms l a) (hb : IsRms l b) : a = b := by
  have hn : (0 : ℝ) < l.length := by
    have := List.length_pos_iff.2 hne
    exact_mod_cast this
  have : a ^ 2 = b ^ 2 := mul_right_cancel₀ hn.ne' (ha.2.trans hb.2.symm)
  exact (sq_eq_sq₀ ha.1 hb.1).1 this

/-- **C86** The metrics of one step fit together: the squared norm of the gradient is the sum of the squared root mean squares, each times the size of its
parameter; and no root mean square exceeds the largest weight. -/
theorem C86_consistent (grads old new : Tree ℝ) (hg : PyDict.WF grads) (hn : PyDict.WF new) (hgs : Same grads new) (hos : Same old new)
    (hne : ∀ e ∈ new, e.2 ≠ []) (r : List (Name × Option ℝ)) (hr : computeMetrics grads old new = .ok r) :
    (∃ n, PyDict.get r "weight_gradient_norm".toList = some (some n) ∧
      n ^ 2 = (grads.map fun e => (((PyDict.get r (key "weight_gradient_rms".toList e.1)).getD none).getD 0) ^ 2 * e.2.length).sum) ∧
    ∀ k w, PyDict.get new k = some w → ∃ v m, PyDict.get r (key "weight_rms".toList k) = some (some v) ∧
      PyDict.get r (key "weight_max".toList k) = some (some m) ∧ v ≤ m ∧ m ^ 2 ≤ v ^ 2 * w.length := by
  obtain ⟨r', h0, ⟨n, h1, -, h2⟩, h3, -⟩ := C86_metrics grads old new hg hn hgs hos hne
  rw [hr] at h0
  cases h0
  refine ⟨⟨n, h1, ?_⟩, ?_⟩
  · rw [h2]
    congr 1
    apply List.map_congr_left
    intro e he
    have hge := PyDict.get_of_mem grads hg e.1 e.2 he
    obtain ⟨w, hw⟩ : ∃ w, PyDict.get new e.1 = some w := by
      have := hgs e.1
      rw [hge] at this
      cases hw : PyDict.get new e.1 with
      | none => rw [hw] at this; cases this
      | some w => exact ⟨w, rfl⟩
    obtain ⟨o, g, -, q2, -, ⟨v, q3, q4⟩, -⟩ := h3 e.1 w hw
    rw [hge] at q2; cases q2
    rw [q3, ← q4.2]; rfl
  · intro k w hw
    obtain ⟨o, g, -, -, ⟨v, q1, q2⟩, -, -, -, -, ⟨m, q3, q4⟩⟩ := h3 k w hw
    obtain ⟨q5, q6⟩ := rms_le_max w (hne (k, w) (PyDict.mem_of_get new k w hw)) v m q2 q4
    exact ⟨v, m, q1, q3, q5, q6⟩

/-- **C86** From one step to the next: `weight_rms` of a parameter changes by at most its `weight_update_rms`, which is zero exactly if the
parameter did not change. -/
theorem C86_steps (g1 g2 p0 p1 p2 : Tree ℝ) (hg1 : PyDict.WF g1) (hg2 : PyDict.WF g2) (hp1 : PyDict.WF p1) (hp2 : PyDict.WF p2)
    (hs1 : Same g1 p1) (hs2 : Same g2 p2) (h01 : Same p0 p1) (h12 : Same p1 p2) (hne : ∀ e ∈ p2, e.2 ≠ [])
    (r1 r2 : List (Name × Option ℝ)) (hr1 : computeMetrics g1 p0 p1 = .ok r1) (hr2 : computeMetrics g2 p1 p2 = .ok r2)
    (k : Name) (hk : k ∈ PyDict.keys p2) :
    ∃ a b c, PyDict.get r1 (key "weight_rms".toList k) = some (some a) ∧ PyDict.get r2 (key "weight_rms".toList k) = some (some b) ∧
      PyDict.get r2 (key "weight_update_rms".toList k) = some (some c) ∧ |b - a| ≤ c ∧ (c = 0 ↔ PyDict.get p1 k = PyDict.get p2 k) := by
  have hne1 : ∀ e ∈ p1, e.2 ≠ [] := by
    intro e he h0
    have hge := PyDict.get_of_mem p1 hp1 e.1 e.2 he
    have := h12 e.1
    rw [hge, h0] at this
    cases hw : PyDict.get p2 e.1 with
    | none => rw [hw] at this; cases this
    | some w =>
      rw [hw] at this
      simp only [Option.map_some, List.length_nil, Option.some.injEq] at this
      exact hne (e.1, w) (PyDict.mem_of_get p2 e.1 w hw) (List.length_eq_zero_iff.1 this.symm)
  obtain ⟨r, h0, -, h3, -⟩ := C86_metrics g1 p0 p1 hg1 hp1 hs1 h01 hne1
  rw [hr1] at h0; cases h0
  obtain ⟨r, h0, -, h4, -⟩ := C86_metrics g2 p1 p2 hg2 hp2 hs2 h12 hne
  rw [hr2] at h0; cases h0
  rw [← PyDict.get_isSome_iff, Option.isSome_iff_exists] at hk
  obtain ⟨w, hw⟩ := hk
  obtain ⟨o, -, q1, -, ⟨b, q2, q3⟩, -, ⟨c, q4, q5⟩, -⟩ := h4 k w hw
  obtain ⟨-, -, -, -, ⟨a, s1, s2⟩, -⟩ := h3 k o q1
  have hl : w.length = o.length := by
    have := h12 k
    rw [q1, hw] at this
    simpa using this.symm
  have hwne := hne (k, w) (PyDict.mem_of_get p2 k w hw)
  refine ⟨a, b, c, s1, q2, q4, rms_triangle w o hl hwne b a c q3 s2 q5, ?_⟩
  rw [q1, hw, Option.some.injEq]
  have hn : (0 : ℝ) < w.length := by
    have := List.length_pos_iff.2 hwne
    exact_mod_cast this
  have hsum : c = 0 ↔ ((List.zipWith (fun x y => x - y) w o).map fun x => x ^ 2).sum = 0 := by
    rw [← q5.2, List.length_zipWith, ← hl, Nat.min_self]
    constructor
    · rintro rfl; simp
    · intro h
      have := (mul_eq_zero.1 h).resolve_right hn.ne'
      exact pow_eq_zero_iff (two_ne_zero) |>.1 this
  rw [hsum]
  clear * - hl
  induction w generalizing o with
  | nil => cases o with
    | nil => simp
    | cons y o => cases hl
  | cons x w ih =>
    cases o with
    | nil => cases hl
    | cons y o =>
      simp only [List.zipWith_cons_cons, List.map_cons, List.sum_cons]
      have h1 := ih o (by simpa using hl)
      have h2 := sq_nonneg_sum (List.zipWith (fun x y => x - y) w o)
      constructor
      · intro h
        have e1 : (x - y) ^ 2 = 0 := by nlinarith [sq_nonneg (x - y)]
        have e2 : ((List.zipWith (fun x y => x - y) w o).map fun x => x ^ 2).sum = 0 := by nlinarith [sq_nonneg (x - y)]
        have e3 : x - y = 0 := pow_eq_zero_iff (two_ne_zero) |>.1 e1
        rw [h1.1 e2, sub_eq_zero.1 e3]
      · intro h
        cases h
        rw [h1.2 rfl]; simp

/-- **C86** A limit: a parameter without elements makes the train step fail. -/
theorem C86_empty (grads old new : Tree ℝ) (h : ∃ e ∈ new, e.2 = []) : computeMetrics grads old new = .error .valueError := by
  have hm : maxItems "weight_max".toList new = .error .valueError := by
    generalize "weight_max".toList = p
    induction new with
    | nil => obtain ⟨e, he, -⟩ := h; cases he
    | cons x new ih =>
      obtain ⟨k, v⟩ := x
      simp only [maxItems]
      obtain ⟨e, he, h0⟩ := h
      rcases List.mem_cons.1 he with rfl | he
      · dsimp only at h0; subst h0; rfl
      · rw [ih ⟨e, he, h0⟩]
        cases maxAbs v <;> rfl
  unfold computeMetrics makeMax
  rw [hm]
  dsimp only
  cases h1 : treeMap (fun x y : ℝ => x - y) new old with
  | error e => cases e; rfl
  | ok upd =>
    dsimp only
    cases h2 : treeMap divide upd old with
    | error e => cases e; rfl
    | ok rel => rfl

/-! ### Non-vacuity -/

example : ∃ r, computeMetrics [("a".toList, [3, 4]), ("b".toList, [0])] [("b".toList, [0]), ("a".toList, [1, 1])]
    [("a".toList, [2, 3]), ("b".toList, [5])] = .ok r := by
  obtain ⟨r, h, -⟩ := C86_metrics [("a".toList, [3, 4]), ("b".toList, [0])] [("b".toList, [0]), ("a".toList, [1, 1])]
    [("a".toList, [2, 3]), ("b".toList, [5])] (by unfold PyDict.WF PyDict.keys; simp only [List.map_cons, List.map_nil]; decide)
    (by unfold PyDict.WF PyDict.keys; simp only [List.map_cons, List.map_nil]; decide)
    (by intro k; simp only [PyDict.get]; split_ifs <;> rfl)
    (by
      intro k
      simp only [PyDict.get]
      by_cases h1 : "a".toList = k
      · rw [if_pos h1, if_pos h1, if_neg (by rw [← h1]; decide)]; rfl
      · rw [if_neg h1, if_neg h1]; split_ifs <;> rfl)
    (by simp)
  exact ⟨r, h⟩

end Verif.WeightMetrics
