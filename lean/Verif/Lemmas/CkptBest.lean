import Verif.Lemmas.CkptDir
/-
Lemmas about the choice of checkpoints to remove.
-/
namespace Verif.Ckpt
open Verif Verif.Ckpt.Spec

/-- In increasing order, the first `length - k` are those with at least `k` larger ones. -/
theorem mem_take_iff (l : List Nat) (hl : l.Pairwise (· < ·)) (k n : Nat) (hn : n ∈ l) :
    n ∈ l.take (l.length - k) ↔ k ≤ (l.filter (fun m => n < m)).length := by
  induction l with
  | nil => simp at hn
  | cons a t ih =>
    rw [List.pairwise_cons] at hl
    have hlen : ∀ n, (t.filter (fun m => n < m)).length ≤ t.length := fun n => List.length_filter_le _ _
    by_cases hna : n = a
    · subst hna
      have h1 : (List.filter (fun m => decide (n < m)) (n :: t)) = t := by
        rw [List.filter_cons]
        simp only [lt_irrefl, decide_false, Bool.false_eq_true, if_false]
        rw [List.filter_eq_self]
        intro x hx; simp [hl.1 x hx]
      rw [h1]
      by_cases hk : k ≤ t.length
      · have : (n :: t).length - k = (t.length - k) + 1 := by simp; omega
        rw [this, List.take_succ_cons]
        simp [hk]
      · have : (n :: t).length - k = 0 := by simp; omega
        rw [this]; simp; omega
    · have hnt : n ∈ t := by
        rcases List.mem_cons.1 hn with h | h
        · exact absurd h hna
        · exact h
      have h1 : (List.filter (fun m => decide (n < m)) (a :: t)) = t.filter (fun m => n < m) := by
        rw [List.filter_cons, if_neg]
        have := hl.1 n hnt
        simp; omega
      rw [h1]
      by_cases hk : k ≤ t.length
      · have : (a :: t).length - k = (t.length - k) + 1 := by simp; omega
        rw [this, List.take_succ_cons, List.mem_cons, ← ih hl.2 hnt]
        simp [hna]
      · have : (a :: t).length - k = 0 := by simp; omega
        rw [this]
        have := hlen n
        simp; omega

section best
variable {α : Type} [LinearOrder α] [BoundedOrder α]

/-- What comes first in the sorted list is not better, and on ties it is older. -/
theorem sort_take (mm : Bool) (metric : Nat → Option α) (l : List Nat) (hl : l.Pairwise (· < ·)) (m : Nat)
    (r e : Nat) (hr : r ∈ (sortByMetric mm metric l).take m) (he : e ∈ l) (hne : e ∉ (sortByMetric mm metric l).take m) :
    ¬ Better mm metric r e ∧ (Tied mm metric r e → r < e) := by
  have hperm := perm_sortByMetric mm metric l
  have hnd : l.Nodup := hl.imp (fun h => Nat.ne_of_lt h)
  have hnd2 : (sortByMetric mm metric l).Nodup := hperm.nodup_iff.2 hnd
  have he2 : e ∈ (sortByMetric mm metric l).drop m := by
    have : e ∈ (sortByMetric mm metric l).take m ++ (sortByMetric mm metric l).drop m := by
      rw [List.take_append_drop]; exact hperm.mem_iff.2 he
    rcases List.mem_append.1 this with h | h
    · exact absurd h hne
    · exact h
  have hre : [r, e].Sublist (sortByMetric mm metric l) := by
    rw [← List.take_append_drop m (sortByMetric mm metric l)]
    exact List.Sublist.append (List.singleton_sublist.2 hr) (List.singleton_sublist.2 he2)
  have hrl : r ∈ l := hperm.mem_iff.1 (List.mem_of_mem_take hr)
  have hner : r ≠ e := by rintro rfl; exact hne hr
  have noswap : ¬ [e, r].Sublist (sortByMetric mm metric l) := by
    intro h
    generalize sortByMetric mm metric l = L at *
    have : ∀ L : List Nat, L.Nodup → [r, e].Sublist L → [e, r].Sublist L → False := by
      intro L
      induction L with
      | nil => intro _ h; simp at h
      | cons x L ih =>
        intro hn h1 h2
        rw [List.nodup_cons] at hn
        rw [List.cons_sublist_cons'] at h1 h2
        rcases h1 with h1 | ⟨h1, h1'⟩
        · rcases h2 with h2 | ⟨h2, h2'⟩
          · exact ih hn.2 h1 h2
          · subst h2; exact hn.1 (h1.subset (by simp))
        · rcases h2 with h2 | ⟨h2, h2'⟩
          · subst h1; exact hn.1 (h2.subset (by simp))
          · exact hner (h1.trans h2.symm)
    exact this L hnd2 hre h
  have pair : ∀ {a b : Nat}, a ∈ l → b ∈ l → a < b → [a, b].Sublist l := by
    intro a b ha hb hab
    clear hre noswap hnd2 hperm hr hne he2 hrl he hnd
    induction l with
    | nil => simp at ha
    | cons x t ih =>
      rw [List.pairwise_cons] at hl
      rcases List.mem_cons.1 ha with rfl | ha2
      · have : b ∈ t := by
          rcases List.mem_cons.1 hb with rfl | hb
          · omega
          · exact hb
        exact List.Sublist.cons_cons _ (List.singleton_sublist.2 this)
      · have : b ∈ t := by
          rcases List.mem_cons.1 hb with h | hb
          · have := hl.1 a (by assumption); omega
          · exact hb
        exact (ih hl.2 ha2 this).cons _
  cases mm with
  | true =>
    have hsorted : (sortByMetric true metric l).Pairwise
        (fun a b => (metric a).getD ⊥ ≤ (metric b).getD ⊥) := by
      unfold sortByMetric
      rw [if_pos rfl]
      haveI : Std.Total (fun a b : Nat => (metric a).getD ⊥ ≤ (metric b).getD ⊥) := ⟨fun a b => le_total _ _⟩
      haveI : IsTrans Nat (fun a b : Nat => (metric a).getD ⊥ ≤ (metric b).getD ⊥) := ⟨fun a b c => le_trans⟩
      exact List.pairwise_insertionSort _ _
    have hle : (metric r).getD ⊥ ≤ (metric e).getD ⊥ := by
      have := hsorted.sublist hre
      simpa using this
    simp only [Better, Tied, if_true]
    refine ⟨not_lt.2 hle, ?_⟩
    intro ht
    by_contra hlt
    have hlt : e < r := by omega
    refine noswap ?_
    unfold sortByMetric
    rw [if_pos rfl]
    haveI : Std.Total (fun a b : Nat => (metric a).getD ⊥ ≤ (metric b).getD ⊥) := ⟨fun a b => le_total _ _⟩
    haveI : IsTrans Nat (fun a b : Nat => (metric a).getD ⊥ ≤ (metric b).getD ⊥) := ⟨fun a b c => le_trans⟩
    refine List.sublist_insertionSort ?_ (pair he hrl hlt)
    simp [ht]
  | false =>
    have hsorted : (sortByMetric false metric l).Pairwise
        (fun a b => (metric b).getD ⊤ ≤ (metric a).getD ⊤) := by
      unfold sortByMetric
      rw [if_neg (by simp)]
      haveI : Std.Total (fun a b : Nat => (metric b).getD ⊤ ≤ (metric a).getD ⊤) := ⟨fun a b => le_total _ _⟩
      haveI : IsTrans Nat (fun a b : Nat => (metric b).getD ⊤ ≤ (metric a).getD ⊤) := ⟨fun a b c h h' => le_trans h' h⟩
      exact List.pairwise_insertionSort _ _
    have hle : (metric e).getD ⊤ ≤ (metric r).getD ⊤ := by
      have := hsorted.sublist hre
      simpa using this
    simp only [Better, Tied, Bool.false_eq_true, if_false]
    refine ⟨not_lt.2 hle, ?_⟩
    intro ht
    by_contra hlt
    have hlt : e < r := by omega
    refine noswap ?_
    unfold sortByMetric
    rw [if_neg (by simp)]
    haveI : Std.Total (fun a b : Nat => (metric b).getD ⊤ ≤ (metric a).getD ⊤) := ⟨fun a b => le_total _ _⟩
    haveI : IsTrans Nat (fun a b : Nat => (metric b).getD ⊤ ≤ (metric a).getD ⊤) := ⟨fun a b c h h' => le_trans h' h⟩
    refine List.sublist_insertionSort ?_ (pair he hrl hlt)
    simp [ht]

/-- The candidates of save-best pruning are the eligible checkpoints. -/
theorem eligible_eq (kw : Bool) (period : Option Nat) (metric : Nat → Option α) (l : List Nat)
    (hl : l.Pairwise (· < ·)) :
    (if kw then (existingSteps period l).dropLast.filter (fun s => (metric s).isSome)
      else (existingSteps period l).dropLast) =
    eligible kw period metric l := by
  rcases List.eq_nil_or_concat' l with rfl | ⟨t, x, rfl⟩
  · rcases period with _ | _ | p <;> cases kw <;> simp [existingSteps, truthy, eligible, filterPeriod]
  · rw [List.pairwise_append] at hl
    have hx : ∀ s ∈ t, s < x := fun s hs => hl.2.2 s hs x (by simp)
    have hlt : ∀ s ∈ t, decide (∃ u ∈ t ++ [x], s < u) = true := by
      intro s hs; simp only [decide_eq_true_eq]; exact ⟨x, by simp, hx s hs⟩
    have hxf : decide (∃ u ∈ t ++ [x], x < u) = false := by
      simp only [decide_eq_false_iff_not]
      rintro ⟨u, hu, h⟩
      rcases List.mem_append.1 hu with h' | h'
      · have := hx u h'; omega
      · simp at h'; omega
    unfold eligible
    rw [List.filter_append]
    have e2 : ∀ g : Nat → Bool, List.filter (fun s => decide (∃ u ∈ t ++ [x], s < u) && g s) [x] = [] := by
      intro g; simp only [List.filter_cons, hxf, Bool.false_and, Bool.false_eq_true, if_false, List.filter_nil]
    have e1 : ∀ g : Nat → Bool, List.filter (fun s => decide (∃ u ∈ t ++ [x], s < u) && g s) t = t.filter g := by
      intro g
      apply List.filter_congr
      intro s hs
      rw [hlt s hs, Bool.true_and]
    simp only [Bool.and_assoc]
    rw [e1, e2, List.append_nil]
    rcases period with _ | _ | p
    · cases kw
      · simp [existingSteps, truthy]
      · simp [existingSteps, truthy]
    · cases kw
      · simp [existingSteps, truthy]
      · simp [existingSteps, truthy]
    · cases kw
      · simp [existingSteps, truthy, filterPeriod, Nat.dvd_iff_mod_eq_zero]
      · simp [existingSteps, truthy, filterPeriod, Nat.dvd_iff_mod_eq_zero, List.filter_filter, Bool.and_comm]

/-- Save-best pruning removes the first ones of the sorted eligible checkpoints. -/
theorem removalList_best (k : Nat) (mm kw : Bool) (period : Option Nat) (metric : Nat → Option α) (l : List Nat)
    (hl : l.Pairwise (· < ·)) :
    removalList (.best (some (k + 1)) mm kw period metric) l =
      (sortByMetric mm metric (eligible kw period metric l)).take ((eligible kw period metric l).length - (k + 1)) := by
  have he := eligible_eq kw period metric l hl
  unfold removalList
  simp only [show truthy (some (k + 1)) = some (k + 1) from rfl]
  generalize existingSteps period l = ex at he ⊢
  have hlen : (eligible kw period metric l).length ≤ ex.length - 1 := by
    rw [← he]
    split_ifs
    · refine (List.length_filter_le _ _).trans ?_; simp
    · simp
  split_ifs with h1 h2
  · have : (eligible kw period metric l).length - (k + 1) = 0 := by omega
    rw [this]; simp
  · rw [if_pos h2] at he
    rw [he, List.take_append_of_le_length]
    rw [(perm_sortByMetric mm metric _).length_eq]; omega
  · rw [if_neg h2] at he
    rw [he, List.take_append_of_le_length]
    rw [(perm_sortByMetric mm metric _).length_eq]; omega

end best
end Verif.Ckpt
