import Verif.Spec.TsPath
/- Property C29. -/
namespace Verif.TsPath
open Spec

theorem dotted_no_slash (s : Str) : '/' ∉ dotted s := by
  unfold dotted
  intro h
  obtain ⟨c, _, hc⟩ := List.mem_map.1 h
  split_ifs at hc with h1
  · exact absurd hc (by decide)
  · exact h1 hc

theorem dotted_append (a b : Str) : dotted (a ++ b) = dotted a ++ dotted b := List.map_append

theorem dotted_clean (k : Str) (h : '/' ∉ k) : dotted k = k := by
  unfold dotted
  conv_rhs => rw [← List.map_id k]
  apply List.map_congr_left
  intro c hc
  rw [if_neg]
  · rfl
  · rintro rfl; exact h hc

/-- The first component ends at the first dot. -/
theorem split_dot (a b x y : Str) (ha : '.' ∉ a) (hb : '.' ∉ b) (h : a ++ '.' :: x = b ++ '.' :: y) : a = b ∧ x = y := by
  induction a generalizing b with
  | nil =>
    cases b with
    | nil => exact ⟨rfl, by simpa using h⟩
    | cons c b => simp at h; exact absurd (List.mem_cons.2 (Or.inl h.1)) hb
  | cons c a ih =>
    cases b with
    | nil => simp at h; exact absurd (List.mem_cons.2 (Or.inl h.1.symm)) ha
    | cons c' b =>
      simp only [List.cons_append, List.cons.injEq] at h
      obtain ⟨h1, h2⟩ := ih b (fun hm => ha (List.mem_cons_of_mem _ hm)) (fun hm => hb (List.mem_cons_of_mem _ hm)) h.2
      exact ⟨by rw [h.1, h1], h2⟩

theorem dotted_join_cons (k k' : Str) (ks : List Str) (h : '/' ∉ k) :
    dotted (join (k :: k' :: ks)) = k ++ '.' :: dotted (join (k' :: ks)) := by
  rw [join, dotted_append, dotted_clean k h]
  · rfl
  · intro hc; cases hc

/-- Different key tuples have different relative paths. -/
theorem dotted_join_inj (ks ls : List Str) (h1 : Clean ks) (h2 : Clean ls) (h : dotted (join ks) = dotted (join ls)) : ks = ls := by
  induction ks generalizing ls with
  | nil => exact absurd rfl h1.1
  | cons k ks ih =>
    cases ls with
    | nil => exact absurd rfl h2.1
    | cons l ls =>
      have hk := h1.2 k (List.mem_cons_self ..)
      have hl := h2.2 l (List.mem_cons_self ..)
      cases ks with
      | nil =>
        cases ls with
        | nil => simp only [join] at h; rw [dotted_clean k hk.1, dotted_clean l hl.1] at h; rw [h]
        | cons l' ls =>
          rw [dotted_join_cons l l' ls hl.1, join, dotted_clean k hk.1] at h
          exact absurd (by rw [h]; simp) hk.2
      | cons k' ks =>
        cases ls with
        | nil =>
          rw [dotted_join_cons k k' ks hk.1, join, dotted_clean l hl.1] at h
          exact absurd (by rw [← h]; simp) hl.2
        | cons l' ls =>
          rw [dotted_join_cons k k' ks hk.1, dotted_join_cons l l' ls hl.1] at h
          obtain ⟨e1, e2⟩ := split_dot _ _ _ _ hk.2 hl.2 h
          rw [e1, ih (l' :: ls) ⟨by simp, fun x hx => h1.2 x (List.mem_cons_of_mem _ hx)⟩
            ⟨by simp, fun x hx => h2.2 x (List.mem_cons_of_mem _ hx)⟩ e2]

theorem pathJoin_inj (d a b : Str) (ha : '/' ∉ a) (hb : '/' ∉ b) (h : pathJoin d a = pathJoin d b) : a = b := by
  have h1 : ∀ x : Str, '/' ∉ x → ¬ x.head? = some '/' := by
    intro x hx hh
    cases x with
    | nil => simp at hh
    | cons c x => simp at hh; exact hx (by simp [hh])
  unfold pathJoin at h
  rw [if_neg (h1 a ha), if_neg (h1 b hb)] at h
  split_ifs at h
  · exact List.append_cancel_left h
  · have := List.append_cancel_left h
    simpa using this

/-- C29: two parameters whose keys contain neither '/' nor '.' and differ are stored in different places, for any
checkpoint directory. -/
theorem C29_distinct_partial (D : Str) (ks ls : List Str) (h1 : Clean ks) (h2 : Clean ls) (hne : ks ≠ ls) :
    place D (dotted (join ks)) ≠ place D (dotted (join ls)) := by
  intro h
  apply hne
  apply dotted_join_inj ks ls h1 h2
  unfold place at h
  split at h
  · simp only [Verif.TsPath.Spec.mk.injEq, Option.some.injEq, true_and, and_true] at h
    exact pathJoin_inj _ _ _ (dotted_no_slash _) (dotted_no_slash _) h
  · simp only [Verif.TsPath.Spec.mk.injEq, Option.some.injEq, true_and, and_true] at h
    exact pathJoin_inj _ _ _ (dotted_no_slash _) (dotted_no_slash _) h

/-- C29, where it fails: with a dot in a key two different parameters get the same file. -/
theorem C29_collision (D : Str) : ∃ ks ls : List Str, ks ≠ ls ∧ ks ≠ [] ∧ ls ≠ [] ∧ (∀ k ∈ ks ++ ls, k ≠ [] ∧ '/' ∉ k) ∧
    place D (dotted (join ks)) = place D (dotted (join ls)) := by
  refine ⟨["a.b".toList], ["a".toList, "b".toList], by decide, by decide, by decide, by decide, ?_⟩
  rw [show dotted (join ["a.b".toList]) = dotted (join ["a".toList, "b".toList]) by decide]

/-- C29: an array written to directory D is written to the place of its name in D, whether D is local or gs://. -/
theorem C29_write_place (D name : Str) (hD : Dir D) : updatePath D (getSpec D name) = .ok (place D (dotted name)) := by
  unfold Dir at hD
  unfold updatePath getSpec place
  by_cases h : gsPrefix.isPrefixOf D = true
  · rw [if_pos h]
    cases hm : matchGs D with
    | none => exact absurd hm (hD h)
    | some p => obtain ⟨b, d⟩ := p; rfl
  · rw [if_neg h]
    have : matchGs D = none := by unfold matchGs; rw [if_neg h]
    rw [this]; rfl

theorem matchGs_bucket (b d : Str) (hb : '/' ∉ b) : matchGs ("gs://".toList ++ b ++ '/' :: d) = some (b, d) := by
  have h1 : gsPrefix.isPrefixOf ("gs://".toList ++ b ++ '/' :: d) = true := by
    rw [List.isPrefixOf_iff_prefix]
    exact ⟨b ++ '/' :: d, by simp [gsPrefix]⟩
  have h2 : ("gs://".toList ++ b ++ '/' :: d).drop 5 = b ++ '/' :: d := by
    rw [List.append_assoc]; rfl
  have h3 : ∀ x ∈ b, decide (x ≠ '/') = true := by
    intro x hx
    simp only [ne_eq, decide_not, Bool.not_eq_eq_eq_not, Bool.not_true, decide_eq_false_iff_not]
    rintro rfl
    exact hb hx
  unfold matchGs
  simp only [h1, if_true, h2]
  rw [if_pos (by simp), List.takeWhile_append_of_pos h3, List.dropWhile_append_of_pos h3]
  simp

/-- C29: a checkpoint under `gs://bucket/dir` is stored in that bucket, at `dir/` followed by the
dotted parameter name, and nowhere else. -/
theorem C29_bucket (b d name : Str) (hb : '/' ∉ b) (hd : d ≠ []) (hd' : d.getLast? ≠ some '/') :
    let D := "gs://".toList ++ b ++ '/' :: d
    updatePath D (getSpec D name) = .ok ⟨.gcs, some b, some (d ++ '/' :: dotted name), none⟩ := by
  intro D
  have h1 : gsPrefix.isPrefixOf D = true := by
    rw [List.isPrefixOf_iff_prefix]
    exact ⟨b ++ '/' :: d, by simp [gsPrefix, D]⟩
  have h2 : (dotted name).head? ≠ some '/' := by
    cases name with
    | nil => simp [dotted]
    | cons c s => simp only [dotted, List.map_cons, List.head?_cons, ne_eq, Option.some.injEq]; split_ifs with h <;> simp_all
  have h3 : pathJoin d (dotted name) = d ++ '/' :: dotted name := by
    unfold pathJoin
    rw [if_neg h2, if_neg (by simp [hd, hd'])]
  unfold updatePath getSpec
  rw [if_pos h1, matchGs_bucket b d hb]
  simp [updatePath.go, h3]

/-- C29: under a local directory the array is the file `dir/` followed by the dotted name. -/
theorem C29_local (D name : Str) (hD : D ≠ []) (hD' : D.getLast? ≠ some '/') (hg : ¬ "gs://".toList <+: D) :
    updatePath D (getSpec D name) = .ok ⟨.file, none, some (D ++ '/' :: dotted name), none⟩ := by
  have h1 : ¬ gsPrefix.isPrefixOf D = true := by rwa [List.isPrefixOf_iff_prefix]
  have h2 : (dotted name).head? ≠ some '/' := by
    cases name with
    | nil => simp [dotted]
    | cons c s => simp only [dotted, List.map_cons, List.head?_cons, ne_eq, Option.some.injEq]; split_ifs with h <;> simp_all
  have h3 : pathJoin D (dotted name) = D ++ '/' :: dotted name := by
    unfold pathJoin
    rw [if_neg h2, if_neg (by simp [hD, hD'])]
  unfold updatePath getSpec
  rw [if_neg h1]
  have : matchGs D = none := by unfold matchGs; rw [if_neg h1]
  rw [this]
  simp [updatePath.go, h3]

example : '/' ∉ "my-bucket".toList ∧ "run/checkpoint_5".toList ≠ [] ∧
    "run/checkpoint_5".toList.getLast? ≠ some '/' := by decide
example : ¬ "gs://".toList <+: "/tmp/checkpoint_5".toList := by decide

/-- C29: checkpoints are portable.  The spec recorded for an array when the checkpoint was made in any directory D0
resolves, when the checkpoint is read from any directory D, to the place of the array's name in D. -/
theorem C29_read_place (D0 D name : Str) (hD : Dir D) : readSpec D (getSpec D0 name) = .ok (place D (dotted name)) := by
  rw [← C29_write_place D name hD]
  by_cases h : gsPrefix.isPrefixOf D = true
  · have e : fileToGcs (getSpec D0 name) = .ok (getSpec D name) := by unfold getSpec; rw [if_pos h]; split_ifs <;> rfl
    simp only [readSpec, if_pos h, e]; rfl
  · have e : gcsToFile (getSpec D0 name) = .ok (getSpec D name) := by unfold getSpec; rw [if_neg h]; split_ifs <;> rfl
    simp only [readSpec, if_neg h, e]; rfl

/-- C29: what the assumption is for: the bare bucket `gs://b` is not recognised, and the array would be looked up
under the dummy bucket. -/
example : ¬ Dir "gs://b".toList ∧ updatePath "gs://b".toList (getSpec "gs://b".toList "w".toList) =
    .ok ⟨.gcs, some dummyBucket, some "gs://b/w".toList, none⟩ := by
  refine ⟨?_, by rfl⟩
  intro h; exact h (by decide) (by decide)

example : Dir "gs://b/run/ckpt_1".toList ∧ Clean ["target".toList, "w".toList] ∧
    place "gs://b/run/ckpt_1".toList (dotted (join ["target".toList, "w".toList])) =
      ⟨.gcs, some "b".toList, some "run/ckpt_1/target.w".toList, none⟩ := by
  refine ⟨fun _ => by decide, by unfold Clean; decide, by decide⟩

end Verif.TsPath
