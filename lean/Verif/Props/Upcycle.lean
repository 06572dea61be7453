import Verif.Model.Upcycle
import Mathlib.Data.List.Infix
/- C73: sparse upcycling gives every expert the dense weights. -/
namespace Verif.Upcycle
open Verif.ND

variable {α : Type}

/-- A slice that leaves the array as it is. -/
def Whole : List (Option (Nat × Nat)) → List Nat → Prop
  | [], _ => True
  | _ :: _, [] => False
  | none :: sl, _ :: s => Whole sl s
  | some (lo, hi) :: sl, n :: s => lo = 0 ∧ n ≤ hi ∧ Whole sl s

theorem cutShape_whole (sl : List (Option (Nat × Nat))) : ∀ s, Whole sl s → cutShape sl s = some s := by
  induction sl with
  | nil => intro s _; rfl
  | cons x sl ih =>
    intro s h
    cases s with
    | nil => exact h.elim
    | cons n s =>
      cases x with
      | none => rw [cutShape, ih s h]; rfl
      | some y =>
        obtain ⟨lo, hi⟩ := y
        obtain ⟨h1, h2, h3⟩ := h
        rw [cutShape, ih s h3, h1, Nat.min_eq_right h2, Nat.zero_min, Nat.sub_zero]
        rfl

theorem shift_whole (sl : List (Option (Nat × Nat))) : ∀ s, Whole sl s → ∀ i, shift sl i = i := by
  induction sl with
  | nil => intro s _ i; cases i <;> rfl
  | cons x sl ih =>
    intro s h i
    cases s with
    | nil => exact h.elim
    | cons n s =>
      cases x with
      | none =>
        cases i with
        | nil => rfl
        | cons a i => rw [shift, ih s h]
      | some y =>
        obtain ⟨lo, hi⟩ := y
        obtain ⟨h1, h2, h3⟩ := h
        cases i with
        | nil => rfl
        | cons a i => rw [shift, ih s h3, h1, Nat.zero_add]

/-- **C73**: an expert parameter that is read from a dense checkpoint has one copy of the dense weights per expert, if the host holds all of
it apart from the expert dimension. -/
theorem C73_experts (n : Nat) (info : PInfo) (stored : NDArray α) (pre post : Str) (hname : info.name = pre ++ "expert/".toList ++ post)
    (hm : ¬ "/m".toList <:+ info.name) (hv : ¬ "/v".toList <:+ info.name) (e : Nat) (hshape : info.shape = e :: stored.shape)
    (x : Option (Nat × Nat)) (sl : List (Option (Nat × Nat))) (hsl : info.chunk = some (x :: sl)) (hw : Whole sl stored.shape) :
    ∃ r, readUpcycle n true info (.spec false stored) = .ok r ∧ r.shape = n :: stored.shape ∧ (n = e → r.shape = info.shape) ∧
      ∀ k i, r.get (k :: i) = stored.get i := by
  have h1 : mOrV info.name = false := by
    unfold mOrV
    rw [Bool.or_eq_false_iff, Bool.eq_false_iff, Bool.eq_false_iff]
    exact ⟨fun h => hm (List.isSuffixOf_iff_suffix.1 h), fun h => hv (List.isSuffixOf_iff_suffix.1 h)⟩
  have h2 : isExpert info.name = true := by
    unfold isExpert contains
    rw [List.any_eq_true]
    refine ⟨"expert/".toList ++ post, ?_, List.isPrefixOf_iff_prefix.2 (List.prefix_append _ _)⟩
    rw [List.mem_tails, hname, List.append_assoc]
    exact List.suffix_append _ _
  refine ⟨repeatFirst n ⟨stored.shape, fun i => stored.get (shift sl i)⟩, ?_, rfl, ?_, fun k i => ?_⟩
  · simp only [readUpcycle, h1, h2, Bool.not_false, Bool.and_self, if_true, hshape, List.tail_cons, ne_eq, not_true_eq_false, if_false,
      Bool.false_eq_true, hsl, cut, cutShape_whole sl _ hw]
  · rintro rfl
    exact hshape.symm
  · show stored.get (shift sl i) = stored.get i
    rw [shift_whole sl _ hw]

/-- **C73**: a parameter outside the experts, and an optimizer state `m` or `v`, must have the model's shape in the checkpoint and is read as it
is; another shape is an error. -/
theorem C73_others (n : Nat) (info : PInfo) (stored : NDArray α)
    (h : (∀ pre post, info.name ≠ pre ++ "expert/".toList ++ post) ∨ "/m".toList <:+ info.name ∨ "/v".toList <:+ info.name) :
    readUpcycle n true info (.spec false stored) = if stored.shape = info.shape then .ok stored else .error .shape := by
  have hu : (!mOrV info.name && isExpert info.name) = false := by
    rcases h with h | h | h
    · have : isExpert info.name = false := by
        unfold isExpert contains
        rw [Bool.eq_false_iff]
        intro hc
        rw [List.any_eq_true] at hc
        obtain ⟨t, h1, h2⟩ := hc
        rw [List.mem_tails] at h1
        obtain ⟨pre, hpre⟩ := h1
        obtain ⟨post, hpost⟩ := List.isPrefixOf_iff_prefix.1 h2
        exact h pre post (by rw [← hpre, ← hpost, List.append_assoc])
      rw [this, Bool.and_false]
    · have : mOrV info.name = true := by unfold mOrV; rw [List.isSuffixOf_iff_suffix.2 h]; rfl
      rw [this]; rfl
    · have : mOrV info.name = true := by unfold mOrV; rw [List.isSuffixOf_iff_suffix.2 h, Bool.or_true]
      rw [this]; rfl
  simp only [readUpcycle, hu, Bool.false_eq_true, if_false, ne_eq, if_true]
  by_cases hs : stored.shape = info.shape
  · rw [if_pos hs, if_neg (not_not.2 hs)]
  · rw [if_neg hs, if_pos hs]

theorem cutShape_len (sl : List (Option (Nat × Nat))) : ∀ s r, cutShape sl s = some r →
    ∀ (j n lo hi : Nat), s[j]? = some n → sl[j]? = some (some (lo, hi)) → r[j]? = some (min hi n - min lo n) := by
  induction sl with
  | nil => intro s r _ j n lo hi _ h; simp at h
  | cons x sl ih =>
    intro s r h j n lo hi h1 h2
    cases s with
    | nil => cases h
    | cons m s =>
      cases j with
      | zero =>
        simp only [List.getElem?_cons_zero, Option.some.injEq] at h1 h2
        subst h1 h2
        rw [cutShape, Option.map_eq_some_iff] at h
        obtain ⟨r', _, rfl⟩ := h
        rfl
      | succ j =>
        simp only [List.getElem?_cons_succ] at h1 h2
        cases x with
        | none =>
          rw [cutShape, Option.map_eq_some_iff] at h
          obtain ⟨r', h3, rfl⟩ := h
          exact ih s r' h3 j n lo hi h1 h2
        | some y =>
          rw [cutShape, Option.map_eq_some_iff] at h
          obtain ⟨r', h3, rfl⟩ := h
          exact ih s r' h3 j n lo hi h1 h2

/-- **C73, finding**: the local chunk is cut out of the array although the array is the global one.  If a dimension of an expert parameter other
than the expert dimension is distributed over hosts, then the result never has the model's shape. -/
theorem C73_multi_host (n : Nat) (info : PInfo) (stored r : NDArray α) (pre post : Str) (hname : info.name = pre ++ "expert/".toList ++ post)
    (hm : ¬ "/m".toList <:+ info.name) (hv : ¬ "/v".toList <:+ info.name) (x : Option (Nat × Nat))
    (sl : List (Option (Nat × Nat))) (hsl : info.chunk = some (x :: sl)) (j d lo hi : Nat) (hd : info.shape[j + 1]? = some d)
    (hj : sl[j]? = some (some (lo, hi))) (hpart : hi - lo < d) (hlh : hi ≤ d)
    (h : readUpcycle n true info (.spec false stored) = .ok r) : r.shape ≠ info.shape := by
  have h1 : mOrV info.name = false := by
    unfold mOrV
    rw [Bool.or_eq_false_iff, Bool.eq_false_iff, Bool.eq_false_iff]
    exact ⟨fun h => hm (List.isSuffixOf_iff_suffix.1 h), fun h => hv (List.isSuffixOf_iff_suffix.1 h)⟩
  have h2 : isExpert info.name = true := by
    unfold isExpert contains
    rw [List.any_eq_true]
    refine ⟨"expert/".toList ++ post, ?_, List.isPrefixOf_iff_prefix.2 (List.prefix_append _ _)⟩
    rw [List.mem_tails, hname, List.append_assoc]
    exact List.suffix_append _ _
  simp only [readUpcycle, h1, h2, Bool.not_false, Bool.and_self, if_true, hsl, Bool.false_eq_true, if_false, List.tail_cons] at h
  split_ifs at h with hs
  have hs' : stored.shape = info.shape.tail := not_not.1 hs
  unfold cut at h
  cases hc : cutShape sl stored.shape with
  | none => rw [hc] at h; cases h
  | some s =>
    rw [hc] at h
    cases h
    intro heq
    have hsd : stored.shape[j]? = some d := by
      rw [hs', List.getElem?_tail]
      exact hd
    have := cutShape_len sl _ s hc j d lo hi hsd hj
    have h5 : info.shape[j + 1]? = s[j]? := by
      rw [← heq]
      rfl
    rw [hd, this] at h5
    simp only [Option.some.injEq] at h5
    omega

/-- **C73, findings**: (1) `num_experts` is not compared with the model's number of experts; (2) an expert parameter stored in the msgpack file is
not broadcast; (3) nor is one of a model that does not partition it; (4) the accumulators `m` and `v` of an expert parameter of the usual shape
cannot be restored from a dense checkpoint, while any other state of an expert parameter (`v_row`, say) is broadcast. -/
theorem C73_unchecked (stored : NDArray α) (n e : Nat) :
    (∀ r, readUpcycle n true ⟨"target/expert/wi".toList, e :: stored.shape, some []⟩ (.spec false stored) = .ok r → r.shape = n :: stored.shape) ∧
    (∃ r, readUpcycle n true ⟨"target/expert/wi".toList, e :: stored.shape, some []⟩ (.spec false stored) = .ok r) ∧
    readUpcycle n true ⟨"target/expert/wi".toList, e :: stored.shape, some []⟩ (.val stored) = .ok stored ∧
    readUpcycle n false ⟨"target/expert/wi".toList, e :: stored.shape, none⟩ (.spec false stored) = .ok stored ∧
    readUpcycle n true ⟨"state/expert/wi/v".toList, e :: stored.shape, some []⟩ (.spec false stored) = .error .shape ∧
    ∃ r, readUpcycle n true ⟨"state/expert/wi/v_row".toList, e :: stored.shape, some []⟩ (.spec false stored) = .ok r ∧ r.shape = n :: stored.shape := by
  have hm : ∀ s, (!mOrV s && isExpert s) = true → readUpcycle n true ⟨s, e :: stored.shape, some []⟩ (.spec false stored) =
      .ok (repeatFirst n ⟨stored.shape, fun i => stored.get (shift [] i)⟩) := by
    intro s hs
    simp only [readUpcycle, hs, if_true, List.tail_cons, ne_eq, not_true_eq_false, if_false, Bool.false_eq_true, cut, List.tail_nil, cutShape]
  have h1 := hm "target/expert/wi".toList (by decide)
  have h2 := hm "state/expert/wi/v_row".toList (by decide)
  refine ⟨fun r hr => ?_, ⟨_, h1⟩, rfl, ?_, ?_, ⟨_, h2, rfl⟩⟩
  · rw [h1] at hr
    cases hr
    rfl
  · have : (!mOrV "target/expert/wi".toList && isExpert "target/expert/wi".toList) = true := by decide
    simp only [readUpcycle, this, if_true, List.tail_cons, ne_eq, not_true_eq_false, if_false, Bool.false_eq_true]
  · have : (!mOrV "state/expert/wi/v".toList && isExpert "state/expert/wi/v".toList) = false := by decide
    have hne : stored.shape ≠ e :: stored.shape := fun h => by
      have := congrArg List.length h
      simp at this
    simp only [readUpcycle, this, if_false, Bool.false_eq_true, ne_eq, hne, not_false_eq_true, if_true]

/-- `C73_experts` applies: a 2 by 3 matrix for 4 experts, whole on every host. -/
example : ∃ r, readUpcycle 4 true ⟨"target/mlp/expert/wi/kernel".toList, [4, 2, 3], some [some (0, 2), none, some (0, 3)]⟩
      (.spec false ⟨[2, 3], fun i => 10 * i.getD 0 0 + i.getD 1 0⟩) = .ok r ∧ r.shape = [4, 2, 3] ∧ r.get [3, 1, 2] = 12 := by
  obtain ⟨r, h1, h2, _, h4⟩ := C73_experts 4 ⟨"target/mlp/expert/wi/kernel".toList, [4, 2, 3], some [some (0, 2), none, some (0, 3)]⟩
    (⟨[2, 3], fun i => 10 * i.getD 0 0 + i.getD 1 0⟩ : NDArray Nat) "target/mlp/".toList "wi/kernel".toList rfl (by decide) (by decide) 4 rfl _ _ rfl
    ⟨rfl, Nat.le_refl _, trivial⟩
  exact ⟨r, h1, h2, h4 3 [1, 2]⟩

/-- `C73_multi_host` applies: the last dimension on two hosts. -/
example : ∃ r, readUpcycle 4 true ⟨"target/mlp/expert/wi/kernel".toList, [4, 2, 6], some [none, none, some (3, 6)]⟩
    (.spec false ⟨[2, 6], fun i => 10 * i.getD 0 0 + i.getD 1 0⟩) = .ok r ∧ r.shape = [4, 2, 3] ∧ r.get [3, 1, 2] = 15 := ⟨_, rfl, rfl, rfl⟩

end Verif.Upcycle
