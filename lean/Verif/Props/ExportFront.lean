import Verif.Model.ExportFront
import Verif.Props.Export
import Mathlib.Data.List.TakeWhile
/-
Property C121: the parts of an export around the model.
-/
namespace Verif.ExportFront
open Verif.Export Verif.Export.Spec

/-! ### Dual encoders -/

/-- **C121.**  For every batch of texts, each feature of the dual encoder has the smallest permitted width that holds all rows, and row `i` shows the tokens of the part of text `i`,
cut to the length of the feature with EOS as the last token if it has one, then padding.  Thus other texts of the batch change nothing but the padding. -/
theorem C121_dual (fl fr : Feature) (hl : Valid fl) (hr : Valid fr) (encL encR : List Char → List Int) (sep : Option (List Char)) (texts : List (List Char))
    (hne : texts ≠ []) :
    ∃ left right wl wr, dual fl fr encL encR sep texts = .ok (left, right) ∧
      Width fl (texts.map fun t => encL (twoTexts sep t).1) wl ∧ Width fr (texts.map fun t => encR (twoTexts sep t).2) wr ∧
      IsArray left texts.length wl ∧ IsArray right texts.length wr ∧
      ∀ i (h : i < texts.length) j,
        entry left i j = (wanted fl (encL (twoTexts sep texts[i]).1)).getD j 0 ∧
        entry right i j = (wanted fr (encR (twoTexts sep texts[i]).2)).getD j 0 := by
  choose wl hl1 hl2 hl3 using truncatePad_valid fl hl
  choose wr hr1 hr2 hr3 using truncatePad_valid fr hr
  have ha := mapE_ok (fun t => dualFeaturize fl encL (twoTexts sep t).1)
    (fun t => cutPad (wl (encL (twoTexts sep t).1)) (withEos fl (encL (twoTexts sep t).1))) texts (fun t _ => hl1 _)
  have hb := mapE_ok (fun t => dualFeaturize fr encR (twoTexts sep t).2)
    (fun t => cutPad (wr (encR (twoTexts sep t).2)) (withEos fr (encR (twoTexts sep t).2))) texts (fun t _ => hr1 _)
  have ea : texts.map (fun t => cutPad (wl (encL (twoTexts sep t).1)) (withEos fl (encL (twoTexts sep t).1)))
      = (texts.map fun t => encL (twoTexts sep t).1).map fun t => cutPad (wl t) (withEos fl t) := by simp [List.map_map, Function.comp_def]
  have eb : texts.map (fun t => cutPad (wr (encR (twoTexts sep t).2)) (withEos fr (encR (twoTexts sep t).2)))
      = (texts.map fun t => encR (twoTexts sep t).2).map fun t => cutPad (wr t) (withEos fr t) := by simp [List.map_map, Function.comp_def]
  rw [ea] at ha
  rw [eb] at hb
  refine ⟨toTensor ((texts.map fun t => encL (twoTexts sep t).1).map fun t => cutPad (wl t) (withEos fl t)),
    toTensor ((texts.map fun t => encR (twoTexts sep t).2).map fun t => cutPad (wr t) (withEos fr t)), _, _, ?_,
    width_batch fl _ (by simpa using hne) wl hl2, width_batch fr _ (by simpa using hne) wr hr2, ?_, ?_, ?_⟩
  · unfold dual
    rw [ha, hb]
  · have := isArray_toTensor (texts.map fun t => encL (twoTexts sep t).1) fun t => cutPad (wl t) (withEos fl t)
    simpa only [cutPad_length, List.length_map] using this
  · have := isArray_toTensor (texts.map fun t => encR (twoTexts sep t).2) fun t => cutPad (wr t) (withEos fr t)
    simpa only [cutPad_length, List.length_map] using this
  · intro i h j
    simp only [entry_toTensor, List.getElem?_map, List.getElem?_eq_getElem h, Option.map_some]
    exact ⟨hl3 _ j, hr3 _ j⟩

/-- **C121.**  With a separator the left text is what comes before its first occurrence and the right text what comes after; without a separator, or if it does not occur, the left text
is the whole and the right text is empty. -/
theorem C121_dual_texts (sep : List Char) (hs : sep ≠ []) :
    (∀ a b, (∀ i, i < a.length → ¬ sep <+: (a ++ sep ++ b).drop i) → twoTexts (some sep) (a ++ sep ++ b) = (a, b)) ∧
      (∀ s, ¬ sep <:+: s → twoTexts (some sep) s = (s, [])) ∧ ∀ s, twoTexts none s = (s, []) :=
  ⟨fun a b h => C67_split sep hs a b h, fun s h => C67_split_absent sep s h, fun _ => rfl⟩

example : dual ⟨some 1, 4, none⟩ ⟨none, 3, some [3, 1]⟩ (fun t => t.map fun c => (c.toNat : Int)) (fun t => t.map fun c => (c.toNat : Int)) (some "|".toList)
    ["ab|c".toList, "abcde".toList] = .ok ([[97, 98, 1, 0], [97, 98, 99, 1]], [[99], [0]]) := by decide +kernel
example : Valid ⟨some 1, 4, none⟩ ∧ Valid ⟨none, 3, some [3, 1]⟩ := ⟨⟨by decide, by decide, by decide⟩, ⟨by decide, by decide, by decide⟩⟩
example : twoTexts (some "|".toList) "ab|c|d".toList = ("ab".toList, "c|d".toList) :=
  (C121_dual_texts "|".toList (by decide)).1 "ab".toList "c|d".toList (by decide)

/-! ### Preprocessing with the pipeline of a task -/

theorem parseAll_ok {E A : Type} (parse : E → Option A) (p : E → A) : ∀ l : List E, (∀ e ∈ l, parse e = some (p e)) → parseAll parse l = .ok (l.map p)
  | [], _ => rfl
  | e :: l, h => by
    simp only [parseAll, h e List.mem_cons_self, parseAll_ok parse p l fun a ha => h a (List.mem_cons_of_mem _ ha), List.map_cons]

theorem parseAll_error {E A : Type} (parse : E → Option A) : ∀ l : List E, (∃ e ∈ l, parse e = none) → parseAll parse l = .error .parse
  | [], ⟨e, he, _⟩ => nomatch he
  | a :: l, ⟨e, he, hn⟩ => by
    cases ha : parse a with
    | none => simp only [parseAll, ha]
    | some b =>
      have : ∃ e ∈ l, parse e = none := by
        rcases List.mem_cons.mp he with rfl | h
        · rw [ha] at hn; exact nomatch hn
        · exact ⟨e, h, hn⟩
      simp only [parseAll, ha, parseAll_error parse l this]

theorem single_batchDrop {α : Type} (b : Nat) (hb : 0 < b) (l rows : List α) :
    (single (batchDrop b l) = .ok rows ↔ b ≤ l.length ∧ l.length < 2 * b ∧ rows = l.take b) ∧
      (single (batchDrop b l) = .error .noElement ↔ l.length < b) ∧ (single (batchDrop b l) = .error .moreElements ↔ 2 * b ≤ l.length) := by
  unfold batchDrop
  have h1 : l.length < b ↔ l.length / b = 0 := by rw [Nat.div_eq_zero_iff]; omega
  have h2 : 2 * b ≤ l.length ↔ 2 ≤ l.length / b := by rw [Nat.le_div_iff_mul_le hb]
  generalize hk : l.length / b = k at h1 h2
  match k, h1, h2 with
  | 0, h1, h2 =>
    have h0 : l.length < b := h1.mpr rfl
    simp only [List.range_zero, List.map_nil, single, reduceCtorEq, false_iff, true_iff, Except.error.injEq]
    omega
  | 1, h1, h2 =>
    have ha : ¬ l.length < b := fun h => by simpa using h1.mp h
    have hb : ¬ 2 * b ≤ l.length := fun h => by have := h2.mp h; omega
    simp only [List.range_one, List.map_cons, List.map_nil, single, Except.ok.injEq, reduceCtorEq, false_iff, Nat.zero_mul, List.drop_zero]
    refine ⟨⟨fun h => ⟨by omega, by omega, h.symm⟩, fun h => h.2.2.symm⟩, ha, hb⟩
  | k + 2, h1, h2 =>
    have ha : 2 * b ≤ l.length := h2.mpr (by omega)
    simp only [List.range_succ_eq_map, List.map_cons, single, reduceCtorEq, false_iff, true_iff, Except.error.injEq]
    omega

/-- The pipeline treats each example on its own: `g` gives the rows an example leads to. -/
def Pipeline {E A B C : Type} (parse : E → Option A) (runPre : Bool) (pre : List A → List A) (post : List A → List B) (conv : List B → List C)
    (g : E → List C) (examples : List E) : Prop :=
  ∃ p : E → A, (∀ e ∈ examples, parse e = some (p e)) ∧ conv (post (if runPre then pre (examples.map p) else examples.map p)) = examples.flatMap g

theorem process_eq {E A B C : Type} (parse : E → Option A) (runPre : Bool) (pre : List A → List A) (post : List A → List B) (conv : List B → List C)
    (g : E → List C) (examples : List E) (hp : Pipeline parse runPre pre post conv g examples) (hne : examples ≠ [])
    (size : Option Nat) (hs : ∀ b ∈ size, b = examples.length) :
    process parse runPre pre post conv size examples = single (batchDrop examples.length (examples.flatMap g)) := by
  obtain ⟨p, h1, h2⟩ := hp
  have hl : examples.length ≠ 0 := by simpa using hne
  unfold process
  rw [parseAll_ok parse p examples h1]
  cases size with
  | none => simp only [h2, if_neg hl]
  | some b =>
    have : b = examples.length := hs b rfl
    subst this
    simp only [h2, ne_eq, not_true_eq_false, false_or, if_neg hl]

/-- **C121.**  A request of `B` examples succeeds exactly if the pipeline of the task makes at least `B` and fewer than `2 * B` rows of it; the answer is then the first `B` rows.  If the pipeline
makes one row of each example the request succeeds and row `i` comes from example `i`, whatever the other examples are. -/
theorem C121_process {E A B C : Type} (parse : E → Option A) (runPre : Bool) (pre : List A → List A) (post : List A → List B) (conv : List B → List C)
    (g : E → List C) (examples : List E) (hp : Pipeline parse runPre pre post conv g examples) (hne : examples ≠ [])
    (size : Option Nat) (hs : ∀ b ∈ size, b = examples.length) :
    (∀ rows, process parse runPre pre post conv size examples = .ok rows ↔
      examples.length ≤ (examples.map fun e => (g e).length).sum ∧ (examples.map fun e => (g e).length).sum < 2 * examples.length ∧
        rows = (examples.flatMap g).take examples.length) ∧
      ∀ h : E → C, (∀ e ∈ examples, g e = [h e]) → process parse runPre pre post conv size examples = .ok (examples.map h) := by
  have hpos : 0 < examples.length := List.length_pos_of_ne_nil hne
  have key : ∀ rows, process parse runPre pre post conv size examples = .ok rows ↔
      examples.length ≤ (examples.map fun e => (g e).length).sum ∧ (examples.map fun e => (g e).length).sum < 2 * examples.length ∧
        rows = (examples.flatMap g).take examples.length := by
    intro rows
    rw [process_eq parse runPre pre post conv g examples hp hne size hs, (single_batchDrop _ hpos _ rows).1, List.length_flatMap]
  refine ⟨key, fun h hg => ?_⟩
  have e1 : examples.flatMap g = examples.map h := by
    rw [List.map_eq_flatMap]
    exact List.flatMap_congr hg
  have e2 : (examples.map fun e => (g e).length).sum = examples.length := by
    rw [← List.length_flatMap, e1, List.length_map]
  rw [key, e2, e1]
  refine ⟨le_refl _, by omega, ?_⟩
  rw [List.take_of_length_le (by simp)]

/-- **C121.**  A request fails if one of its examples cannot be parsed, if it is empty, or if the number of examples is not the batch size the export was made for. -/
theorem C121_process_fails {E A B C : Type} (parse : E → Option A) (runPre : Bool) (pre : List A → List A) (post : List A → List B) (conv : List B → List C)
    (size : Option Nat) (examples : List E) (h : (∃ e ∈ examples, parse e = none) ∨ examples = [] ∨ ∃ b, size = some b ∧ b ≠ examples.length) :
    ∃ f, process parse runPre pre post conv size examples = .error f := by
  unfold process
  cases hpa : parseAll parse examples with
  | error f => exact ⟨f, rfl⟩
  | ok parsed =>
    rcases h with h | h | ⟨b, h, hb⟩
    · rw [parseAll_error parse examples h] at hpa; exact nomatch hpa
    · subst h
      cases size with
      | none => exact ⟨.batchSize, rfl⟩
      | some b =>
        refine ⟨.batchSize, if_pos ?_⟩
        rw [List.length_nil]
        omega
    · subst h
      exact ⟨.batchSize, if_pos (Or.inl hb)⟩

/-- **C121, finding.**  If the pipeline drops one example of a request and makes at most one row of each of the others, the whole request fails. -/
theorem C121_process_filter {E A B C : Type} (parse : E → Option A) (runPre : Bool) (pre : List A → List A) (post : List A → List B) (conv : List B → List C)
    (g : E → List C) (examples : List E) (hp : Pipeline parse runPre pre post conv g examples)
    (size : Option Nat) (hs : ∀ b ∈ size, b = examples.length) (hle : ∀ e ∈ examples, (g e).length ≤ 1) (e : E) (he : e ∈ examples) (hd : g e = []) :
    process parse runPre pre post conv size examples = .error .noElement := by
  have hne : examples ≠ [] := List.ne_nil_of_mem he
  rw [process_eq parse runPre pre post conv g examples hp hne size hs, (single_batchDrop _ (List.length_pos_of_ne_nil hne) _ []).2.1, List.length_flatMap]
  have : ∀ l : List E, (∀ a ∈ l, (g a).length ≤ 1) → (l.map fun a => (g a).length).sum ≤ l.length ∧ (e ∈ l → (l.map fun a => (g a).length).sum < l.length) := by
    intro l
    induction l with
    | nil => exact fun _ => ⟨le_refl _, fun h => nomatch h⟩
    | cons a l ih =>
      intro h
      obtain ⟨h1, h2⟩ := ih fun b hb => h b (List.mem_cons_of_mem _ hb)
      have ha := h a List.mem_cons_self
      simp only [List.map_cons, List.sum_cons, List.length_cons]
      refine ⟨by omega, fun hm => ?_⟩
      rcases List.mem_cons.mp hm with rfl | hm
      · rw [hd]; simp only [List.length_nil]; omega
      · have := h2 hm; omega
  exact (this examples hle).2 he

/-- **C121, finding.**  If the pipeline makes two rows of the first example and one of each of the others, the request succeeds, but each row after the second comes from the example before, and
the last example has no row. -/
theorem C121_process_expand {E A B C : Type} (parse : E → Option A) (runPre : Bool) (pre : List A → List A) (post : List A → List B) (conv : List B → List C)
    (g : E → List C) (first last : E) (mid : List E) (x y : C) (h : E → C)
    (hp : Pipeline parse runPre pre post conv g (first :: mid ++ [last]))
    (size : Option Nat) (hs : ∀ b ∈ size, b = (first :: mid ++ [last]).length) (hx : g first = [x, y]) (hm : ∀ e ∈ mid, g e = [h e]) (hl : g last = [h last]) :
    process parse runPre pre post conv size (first :: mid ++ [last]) = .ok (x :: y :: mid.map h) := by
  have e1 : mid.flatMap g = mid.map h := by
    rw [List.map_eq_flatMap]
    exact List.flatMap_congr hm
  have e2 : (first :: mid ++ [last]).flatMap g = x :: y :: mid.map h ++ [h last] := by
    rw [List.cons_append, List.flatMap_cons, List.flatMap_append, e1, hx]
    simp [hl]
  refine ((C121_process parse runPre pre post conv g _ hp (by simp) size hs).1 _).mpr ?_
  rw [← List.length_flatMap, e2]
  refine ⟨by simp, by simp; omega, ?_⟩
  rw [List.take_append_of_le_length (by simp), List.take_of_length_le (by simp)]

/-- Cases: texts of digits, of which empty ones are filtered, and pairs are cut into two rows. -/
example : process (fun t : List Nat => some t) true (fun l => l.filter fun t => t ≠ []) id (fun l => l.map List.sum) (some 2) [[1, 2], [3]] = .ok [3, 3] ∧
    Pipeline (fun t : List Nat => some t) true (fun l => l.filter fun t => t ≠ []) id (fun l => l.map List.sum) (fun t => if t = [] then [] else [t.sum]) [[1, 2], [3]] :=
  ⟨by decide +kernel, id, fun _ _ => rfl, by decide +kernel⟩
example : process (fun t : List Nat => some t) true (fun l => l.filter fun t => t ≠ []) id (fun l => l.map List.sum) none [[1, 2], []] = .error .noElement :=
  C121_process_filter _ _ _ _ _ (fun t => if t = [] then [] else [t.sum]) _ ⟨id, fun _ _ => rfl, by decide +kernel⟩ none (by simp) (by decide) [] (by decide) (by decide)
example : process (fun t : List Nat => some t) false id (fun l => l.flatten) id none [[1, 2], [3], [4]] = .ok [1, 2, 3] :=
  C121_process_expand _ _ _ _ _ id [1, 2] [4] [[3]] 1 2 (fun t => t.sum) ⟨id, fun _ _ => rfl, by decide +kernel⟩ none (by simp) rfl (by decide) rfl
example : ∃ f, process (fun t : List Nat => if t = [] then none else some t) false id id id (some 3) [[1], [2]] = .error f :=
  C121_process_fails _ _ _ _ _ _ _ (Or.inr (Or.inr ⟨3, rfl, by decide⟩))

theorem defined_iff (shape : List (Option Nat)) (s : List Nat) : defined shape = some s ↔ shape = s.map some := by
  induction shape generalizing s with
  | nil => cases s <;> simp [defined]
  | cons d l ih =>
    cases d with
    | none => cases s <;> simp [defined]
    | some n =>
      cases hd : defined l with
      | none =>
        simp only [defined, hd, reduceCtorEq, false_iff]
        intro hc
        cases s with
        | nil => simp at hc
        | cons a s =>
          have := (ih s).mpr (by simpa using (List.cons.inj hc).2)
          rw [hd] at this; exact nomatch this
      | some r =>
        have := (ih r).mp hd
        subst this
        cases s with
        | nil => simp [defined, hd]
        | cons a s =>
          simp only [defined, hd, Option.some.injEq, List.cons.injEq, List.map_cons]
          refine and_congr Iff.rfl ⟨fun h => by rw [h], fun h => ?_⟩
          exact List.map_injective_iff.mpr (Option.some_injective _) h

/-- **C121.**  Serialized examples are parsed with the shapes of the source: sparse features as sparse, those with a known shape as that shape, those with only the first dimension unknown as any number of
rows; a source with another unknown dimension, or another kind of feature, is refused.  No feature is left out or renamed. -/
theorem C121_describe (specs : List (String × ElemSpec)) :
    (∀ d, describeAll specs = some d → d.map (·.1) = specs.map (·.1) ∧ ∀ (i : Nat) (k : String) (v : ElemSpec), specs[i]? = some (k, v) →
      (v = .sparse ∧ d[i]? = some (k, .varLen)) ∨ (∃ s : List Nat, v = .dense (s.map some) ∧ d[i]? = some (k, .fixedLen s)) ∨
        (∃ s : List Nat, v = .dense (none :: s.map some) ∧ d[i]? = some (k, .sequence s))) ∧
      (describeAll specs = none ↔ ∃ p ∈ specs, p.2 = .other ∨ ∃ d shape, p.2 = .dense (d :: shape) ∧ none ∈ shape) := by
  have hdef : ∀ shape : List (Option Nat), defined shape = none ↔ none ∈ shape := by
    intro shape
    induction shape with
    | nil => simp [defined]
    | cons d l ih =>
      cases d with
      | none => simp [defined]
      | some n =>
        cases hd : defined l with
        | none => simp [defined, hd, ih.mp hd]
        | some r => simp [defined, hd, ← ih]
  have hnone : ∀ v, describe v = none ↔ v = .other ∨ ∃ d shape, v = .dense (d :: shape) ∧ none ∈ shape := by
    intro v
    cases v with
    | sparse => simp [describe]
    | other => simp [describe]
    | dense shape =>
      cases shape with
      | nil => simp [describe, defined]
      | cons d l =>
        have hR : (ElemSpec.dense (d :: l) = .other ∨ ∃ d' shape, ElemSpec.dense (d :: l) = .dense (d' :: shape) ∧ none ∈ shape) ↔ none ∈ l := by
          constructor
          · rintro (h | ⟨d', s, h, hm⟩)
            · exact nomatch h
            · injection h with h; injection h with _ h; rw [h]; exact hm
          · exact fun h => Or.inr ⟨d, l, rfl, h⟩
        rw [hR, ← hdef]
        cases d with
        | none => cases hd : defined l <;> simp [describe, defined, hd]
        | some n => cases hd : defined l <;> simp [describe, defined, hd]
  have hsome : ∀ v d, describe v = some d → (v = .sparse ∧ d = .varLen) ∨ (∃ s : List Nat, v = .dense (s.map some) ∧ d = .fixedLen s) ∨
      (∃ s : List Nat, v = .dense (none :: s.map some) ∧ d = .sequence s) := by
    intro v d h
    cases v with
    | sparse => simp only [describe, Option.some.injEq] at h; exact Or.inl ⟨rfl, h.symm⟩
    | other => simp [describe] at h
    | dense shape =>
      cases hd : defined shape with
      | some s =>
        simp only [describe, hd, Option.some.injEq] at h
        exact Or.inr (Or.inl ⟨s, by rw [(defined_iff _ _).mp hd], h.symm⟩)
      | none =>
        cases shape with
        | nil => simp [defined] at hd
        | cons x l =>
          cases x with
          | some n => simp [describe, hd] at h
          | none =>
            cases hl : defined l with
            | none => simp [describe, hd, hl] at h
            | some s =>
              simp only [describe, hd, hl, Option.some.injEq] at h
              exact Or.inr (Or.inr ⟨s, by rw [(defined_iff _ _).mp hl], h.symm⟩)
  induction specs with
  | nil =>
    refine ⟨fun d h => ?_, by simp [describeAll]⟩
    simp only [describeAll, Option.some.injEq] at h
    subst h
    exact ⟨rfl, by simp⟩
  | cons q l ih =>
    obtain ⟨k, v⟩ := q
    obtain ⟨ih1, ih2⟩ := ih
    constructor
    · intro d h
      cases hv : describe v with
      | none => simp [describeAll, hv] at h
      | some dv =>
        cases hl : describeAll l with
        | none => simp [describeAll, hv, hl] at h
        | some r =>
          simp only [describeAll, hv, hl, Option.some.injEq] at h
          subst h
          obtain ⟨h1, h2⟩ := ih1 r hl
          refine ⟨by simp [h1], fun i k' v' hi => ?_⟩
          cases i with
          | zero =>
            simp only [List.getElem?_cons_zero, Option.some.injEq, Prod.mk.injEq] at hi ⊢
            obtain ⟨rfl, rfl⟩ := hi
            simpa using hsome v dv hv
          | succ i =>
            simp only [List.getElem?_cons_succ] at hi ⊢
            exact h2 i k' v' hi
    · rw [List.exists_mem_cons_iff, ← ih2, ← hnone]
      cases hv : describe v with
      | none => simp [describeAll, hv]
      | some dv =>
        cases hl : describeAll l with
        | none => simp [describeAll, hv, hl]
        | some r => simp [describeAll, hv, hl]

example : describeAll [("a", .sparse), ("b", .dense [some 2]), ("c", .dense [none, some 3])] = some [("a", .varLen), ("b", .fixedLen [2]), ("c", .sequence [3])] ∧
    describeAll [("a", .sparse), ("b", .dense [some 2, none])] = none := ⟨by decide, by decide⟩

/-! ### Warmup -/

/-- **C121.**  The warmup file holds one request for each pair of a batch of examples and a batch size, in this order.  Each has exactly the wanted batch size, with the examples repeated in turn, or
the whole batch if no size is wanted; the zeros of the decoder parameters have the same batch size.  Examples to be generated replace the given batch. -/
theorem C121_warmup {α : Type} (model input signature : String) (spec : List (String × List Nat)) (batch : List α) (generate : Option (List (List α)))
    (sizes : List (Option Nat)) (examples : List (List α)) (hex : examples = generate.getD [batch]) (hne : ∀ e ∈ examples, e ≠ []) :
    (warmup model input signature spec batch generate sizes).length = examples.length * sizes.length ∧
      ∀ (i j : Nat) (e : List α) (s : Option Nat), examples[i]? = some e → sizes[j]? = some s →
        ∃ r, (warmup model input signature spec batch generate sizes)[i * sizes.length + j]? = some r ∧
          r.model = model ∧ r.signature = signature ∧ r.input = input ∧
          r.batch.length = s.getD e.length ∧ (∀ k, k < r.batch.length → r.batch[k]? = e[k % e.length]?) ∧
          r.params = spec.map fun p => (p.1, r.batch.length :: p.2) := by
  have hw : warmup model input signature spec batch generate sizes = examples.flatMap fun e => sizes.map fun s => request model input signature spec e s := by
    subst hex
    cases generate <;> rfl
  rw [hw]
  clear hw hex
  constructor
  · rw [List.length_flatMap]
    simp
  · intro i j e s hi hj
    have hjl : j < sizes.length := (List.getElem?_eq_some_iff.mp hj).1
    have hidx : ∀ (l : List (List α)) (i : Nat), l[i]? = some e →
        (l.flatMap fun e => sizes.map fun s => request model input signature spec e s)[i * sizes.length + j]? = some (request model input signature spec e s) := by
      intro l
      induction l with
      | nil => intro i h; simp at h
      | cons a l ih =>
        intro i h
        rw [List.flatMap_cons]
        cases i with
        | zero =>
          simp only [List.getElem?_cons_zero, Option.some.injEq] at h
          subst h
          rw [List.getElem?_append_left (by simpa using hjl), Nat.zero_mul, Nat.zero_add, List.getElem?_map, hj]; rfl
        | succ i =>
          rw [List.getElem?_append_right (by rw [List.length_map, Nat.succ_mul]; omega), List.length_map, Nat.succ_mul]
          rw [show i * sizes.length + sizes.length + j - sizes.length = i * sizes.length + j by omega]
          exact ih i (by simpa using h)
    refine ⟨_, hidx examples i hi, rfl, rfl, rfl, ?_, ?_, rfl⟩
    · have hen : e ≠ [] := hne e (List.mem_of_getElem? hi)
      cases s with
      | none => rfl
      | some n => exact (C69_batch e hen n).1
    · have hen : e ≠ [] := hne e (List.mem_of_getElem? hi)
      intro k hk
      cases s with
      | none =>
        simp only [request, adjustBatch] at hk ⊢
        rw [Nat.mod_eq_of_lt hk]
      | some n =>
        have hb := C69_batch e hen n
        simp only [request] at hk ⊢
        rw [hb.1] at hk
        exact hb.2.1 k hk

example : (warmup "m" "text_batch" "sig" [("temp", [])] ["x"] (some [["a", "b"], ["c"]]) [some 3, none]).map (fun r => (r.batch, r.params))
    = [(["a", "b", "a"], [("temp", [3])]), (["a", "b"], [("temp", [2])]), (["c", "c", "c"], [("temp", [3])]), (["c"], [("temp", [1])])] := by decide

/-! ### Output directories -/

theorem no_slash (v : List Char) (hv : '/' ∉ v) : ∀ c ∈ v.reverse, decide (c ≠ '/') = true := by
  intro c hc
  have hc : c ∈ v := List.mem_reverse.mp hc
  exact decide_eq_true fun h => hv (h ▸ hc)

theorem basename_split (base v : List Char) (hv : '/' ∉ v) : basename (base ++ '/' :: v) = v := by
  have h1 : (base ++ '/' :: v).reverse = v.reverse ++ ('/' :: base.reverse) := by simp
  unfold basename
  rw [h1, List.takeWhile_append_of_pos (no_slash v hv)]
  simp

theorem basename_whole (v : List Char) (hv : '/' ∉ v) : basename v = v := by
  unfold basename
  rw [List.takeWhile_eq_self_iff.mpr (no_slash v hv), List.reverse_reverse]

theorem basename_no_slash (p : List Char) : '/' ∉ basename p := by
  unfold basename
  rw [List.mem_reverse]
  intro h
  have := List.mem_takeWhile_imp h
  simp at this

/-- Every path is a last component, or something followed by a slash and the last component. -/
theorem path_cases (p : List Char) : p = basename p ∨ ∃ base, p = base ++ '/' :: basename p := by
  unfold basename
  cases h : p.reverse.dropWhile (· ≠ '/') with
  | nil =>
    left
    have := List.takeWhile_append_dropWhile (p := (· ≠ '/')) (l := p.reverse)
    rw [h, List.append_nil] at this
    rw [this, List.reverse_reverse]
  | cons c l =>
    right
    have hc : c = '/' := by
      have := List.head?_dropWhile_not (· ≠ '/') p.reverse
      rw [h] at this
      simpa using this
    have := List.takeWhile_append_dropWhile (p := (· ≠ '/')) (l := p.reverse)
    rw [h, hc] at this
    refine ⟨l.reverse, ?_⟩
    have h2 := congrArg List.reverse this
    rw [List.reverse_reverse] at h2
    have h3 : ((p.reverse.takeWhile (· ≠ '/')) ++ '/' :: l).reverse = l.reverse ++ '/' :: (p.reverse.takeWhile (· ≠ '/')).reverse := by simp
    exact h2.symm.trans h3

theorem dirname_split (base v : List Char) (hv : '/' ∉ v) (hb : base ≠ []) (hbl : base.getLast? ≠ some '/') : dirname (base ++ '/' :: v) = base := by
  have h1 : (base ++ '/' :: v).reverse = v.reverse ++ ('/' :: base.reverse) := by simp
  unfold dirname
  rw [h1, List.dropWhile_append_of_pos (no_slash v hv)]
  rw [List.dropWhile_cons_of_neg (by simp)]
  cases hr : base.reverse with
  | nil => exact absurd (by simpa using hr) hb
  | cons c l =>
    have hc : c ≠ '/' := by
      rw [List.getLast?_eq_head?_reverse, hr] at hbl
      simpa using hbl
    simp only
    rw [if_neg (by simp [hc]), List.dropWhile_cons_of_pos (by simp), List.dropWhile_cons_of_neg (by simpa using hc), ← hr, List.reverse_reverse]

/-- **C121.**  Directories for the exported model: what the caller gives stays as it is, and there is always one for 'cpu'.  If the caller gave none it is the directory of 'tpu' with `_cpu` put before
the version, `BASE/VERSION` to `BASE_cpu/VERSION`. -/
theorem C121_dirs (digit : Char → Bool) (d : List (String × List Char)) :
    (∀ r, standardizeDirs digit (.dict d) = .ok r →
      (∀ k p, d.lookup k = some p → r.lookup k = some p) ∧ (∃ p, r.lookup "cpu" = some p) ∧ ∀ k, k ≠ "cpu" → r.lookup k = d.lookup k) ∧
      (d.lookup "cpu" = none → ∀ base v : List Char, base ≠ [] → base.getLast? ≠ some '/' → v ≠ [] → (∀ c ∈ v, digit c = true ∧ c ≠ '/') →
        d.lookup "tpu" = some (base ++ '/' :: v) →
          ∃ r, standardizeDirs digit (.dict d) = .ok r ∧ r.lookup "cpu" = some (base ++ "_cpu/".toList ++ v)) ∧
      ∀ p, standardizeDirs digit (.path p) = standardizeDirs digit (.dict [("tpu", p)]) := by
  refine ⟨?_, ?_, fun _ => rfl⟩
  · intro r h
    simp only [standardizeDirs, standardizeDirs.go] at h
    cases hc : d.lookup "cpu" with
    | some p =>
      simp only [hc, Except.ok.injEq] at h
      subst h
      exact ⟨fun _ _ h => h, ⟨p, hc⟩, fun _ _ => rfl⟩
    | none =>
      cases ht : d.lookup "tpu" with
      | none => simp [hc, ht] at h
      | some t =>
        simp only [hc, ht] at h
        split_ifs at h
        injection h with h
        subst h
        refine ⟨fun k p hk => by rw [List.lookup_append, hk]; rfl, ⟨_, by rw [List.lookup_append, hc]; rfl⟩, fun k hk => ?_⟩
        rw [List.lookup_append]
        have : List.lookup k [("cpu", join (dirname t ++ ['_', 'c', 'p', 'u']) (basename t))] = none := by
          simp only [List.lookup]
          rw [show (k == "cpu") = false by simpa using hk]
        rw [this, Option.or_none]
  · intro hc base v hb hbl hv hd ht
    have hs : '/' ∉ v := fun h => (hd _ h).2 rfl
    have hdig : isDigits digit (basename (base ++ '/' :: v)) = true := by
      rw [basename_split base v hs]
      unfold isDigits
      simp only [Bool.and_eq_true, Bool.not_eq_true', List.isEmpty_eq_false_iff, List.all_eq_true]
      exact ⟨hv, fun c h => (hd c h).1⟩
    refine ⟨d ++ [("cpu", join (dirname (base ++ '/' :: v) ++ ['_', 'c', 'p', 'u']) (basename (base ++ '/' :: v)))], ?_, ?_⟩
    · simp only [standardizeDirs, standardizeDirs.go, hc, ht, hdig, if_true]
    · rw [List.lookup_append, hc, basename_split base v hs, dirname_split base v hs hb hbl]
      simp only [Option.none_or, List.lookup, beq_self_eq_true, Option.some.injEq]
      unfold join
      rw [if_neg, if_neg]
      · simp
      · simp
      · cases v with
        | nil => simp
        | cons c v => simpa using (hd c List.mem_cons_self).2

/-- **C121.**  The call fails exactly if no directory is given, or there is none for 'cpu' and that for 'tpu' is missing or what follows its last slash is not a nonempty sequence of digits.
In particular a trailing slash makes it fail. -/
theorem C121_dirs_fails (digit : Char → Bool) (d : List (String × List Char)) :
    (∃ e, standardizeDirs digit .none = .error e) ∧
      ((∃ e, standardizeDirs digit (.dict d) = .error e) ↔ d.lookup "cpu" = none ∧ ∀ t, d.lookup "tpu" = some t →
        ∀ v, '/' ∉ v → (t = v ∨ ∃ base, t = base ++ '/' :: v) → v = [] ∨ ∃ c ∈ v, digit c = false) := by
  refine ⟨⟨_, rfl⟩, ?_⟩
  simp only [standardizeDirs, standardizeDirs.go]
  cases hc : d.lookup "cpu" with
  | some p => simp
  | none =>
    cases ht : d.lookup "tpu" with
    | none => simp
    | some t =>
      have hb : ∀ v, '/' ∉ v → (t = v ∨ ∃ base, t = base ++ '/' :: v) → v = basename t := by
        rintro v hv (rfl | ⟨base, rfl⟩)
        · exact (basename_whole _ hv).symm
        · exact (basename_split _ _ hv).symm
      have hdig : isDigits digit (basename t) = false ↔ basename t = [] ∨ ∃ c ∈ basename t, digit c = false := by
        unfold isDigits
        rw [Bool.and_eq_false_iff]
        simp
      cases hd : isDigits digit (basename t) with
      | true =>
        simp only [hd, if_true, reduceCtorEq, exists_false, true_and, false_iff]
        intro h
        have := hdig.mpr (h t rfl (basename t) (basename_no_slash t) (path_cases t))
        rw [hd] at this; exact nomatch this
      | false =>
        simp only [hd, Bool.false_eq_true, if_false, true_and]
        refine ⟨fun _ t' ht' v hv hs => ?_, fun _ => ⟨_, rfl⟩⟩
        obtain rfl : t = t' := by simpa using ht'
        rw [hb v hv hs]
        exact hdig.mp hd

/-- **C121.**  Versions and models do not share a directory for 'cpu': different directories `BASE/VERSION` have different ones, and the one for 'cpu' is not the one for 'tpu'. -/
theorem C121_dirs_distinct (base base' v v' : List Char) (hv : '/' ∉ v) (hv' : '/' ∉ v')
    (h : base ++ "_cpu/".toList ++ v = base' ++ "_cpu/".toList ++ v') : base = base' ∧ v = v' ∧ base ++ "_cpu/".toList ++ v ≠ base ++ '/' :: v := by
  have e1 : ∀ b w : List Char, b ++ "_cpu/".toList ++ w = (b ++ "_cpu".toList) ++ '/' :: w := fun b w => by simp
  have hvv : v = v' := by
    have := congrArg basename h
    rw [e1, e1, basename_split _ _ hv, basename_split _ _ hv'] at this
    exact this
  refine ⟨?_, hvv, ?_⟩
  · subst hvv
    exact List.append_cancel_right (List.append_cancel_right h)
  · intro hc
    have := congrArg List.length hc
    simp at this
    omega

example : standardizeDirs (fun c => c.isDigit) (.path "/models/m/12".toList) = .ok [("tpu", "/models/m/12".toList), ("cpu", "/models/m_cpu/12".toList)] ∧
    standardizeDirs (fun c => c.isDigit) (.path "/models/m/12/".toList) = .error .version ∧
    standardizeDirs (fun c => c.isDigit) (.dict [("gpu", "x".toList)]) = .error .cpuOrTpu ∧
    standardizeDirs (fun c => c.isDigit) (.dict [("cpu", "x".toList)]) = .ok [("cpu", "x".toList)] := by decide +kernel

/-! ### Fake inputs and polymorphic shapes -/

/-- What the fake input of a shape should be: the unknown batch size is 1. -/
def Fake (shape : List (Option Nat)) (s : List Nat) : Prop :=
  s.length = shape.length ∧ (∀ n, shape[0]? = some (some n) → s[0]? = some n) ∧ (shape[0]? = some none → s[0]? = some 1) ∧
    ∀ i, 0 < i → i < shape.length → ∃ n, shape[i]? = some (some n) ∧ s[i]? = some n

theorem fakeShape_spec (shape : List (Option Nat)) :
    (∀ s, fakeShape shape = some s → Fake shape s) ∧ (fakeShape shape = none ↔ ∃ i, 0 < i ∧ (shape[i]? = some none ∨ shape[i]? = some (some 0))) := by
  unfold fakeShape
  cases shape with
  | nil => simp [Fake]
  | cons d l =>
    simp only [List.drop_succ_cons, List.drop_zero]
    by_cases h : (l.all fun d => d ≠ none && d ≠ some 0) = true
    · rw [if_pos h]
      have h' : ∀ x ∈ l, x ≠ none ∧ x ≠ some 0 := by
        intro x hx
        have := List.all_eq_true.mp h x hx
        simpa using this
      constructor
      · intro s hs
        injection hs with hs
        subst hs
        refine ⟨by simp, ?_, ?_, ?_⟩
        · intro n hn
          have : d = some n := by simpa using hn
          simp [this]
        · intro hn
          have : d = none := by simpa using hn
          simp [this]
        · intro i hi hl
          cases i with
          | zero => omega
          | succ i =>
            have hl : i < l.length := by simpa using hl
            obtain ⟨n, hn⟩ := Option.ne_none_iff_exists'.mp (h' l[i] (List.getElem_mem hl)).1
            refine ⟨n, ?_, ?_⟩
            · rw [List.getElem?_cons_succ, List.getElem?_eq_getElem hl, hn]
            · rw [List.getElem?_cons_succ, List.getElem?_map, List.getElem?_eq_getElem hl, hn]; rfl
      · constructor
        · intro hc; exact nomatch hc
        · rintro ⟨i, hi, hc⟩
          cases i with
          | zero => omega
          | succ i =>
            rw [List.getElem?_cons_succ] at hc
            rcases hc with hc | hc
            · exact absurd rfl (h' _ (List.mem_of_getElem? hc)).1
            · exact absurd rfl (h' _ (List.mem_of_getElem? hc)).2
    · rw [if_neg h]
      refine ⟨fun s hs => (nomatch hs), ⟨fun _ => ?_, fun _ => rfl⟩⟩
      rw [List.all_eq_true] at h
      push Not at h
      obtain ⟨x, hx, hb⟩ := h
      obtain ⟨i, hi, he⟩ := List.getElem_of_mem hx
      refine ⟨i + 1, by omega, ?_⟩
      rw [List.getElem?_cons_succ, List.getElem?_eq_getElem hi, he]
      cases x with
      | none => exact Or.inl rfl
      | some n =>
        have : n = 0 := by
          by_contra hn
          exact hb (by simp [hn])
        exact Or.inr (by rw [this])

/-- **C121.**  Fake inputs have the shapes of the signature with 1 for an unknown batch size; the call is refused exactly if a dimension other than the first is unknown or 0 (of which the second
is a finding: the message says that the dimension is polymorphic). -/
theorem C121_fake (signature : List (List (Option Nat))) :
    (∀ r, fakeInputs signature = some r → r.length = signature.length ∧ ∀ (i : Nat) (shape : List (Option Nat)) (s : List Nat), signature[i]? = some shape → r[i]? = some s → Fake shape s) ∧
      (fakeInputs signature = none ↔ ∃ shape ∈ signature, ∃ i, 0 < i ∧ (shape[i]? = some none ∨ shape[i]? = some (some 0))) := by
  induction signature with
  | nil =>
    refine ⟨fun r h => ?_, by simp [fakeInputs]⟩
    simp only [fakeInputs, Option.some.injEq] at h
    subst h
    exact ⟨rfl, by simp⟩
  | cons s l ih =>
    rw [List.exists_mem_cons_iff, ← ih.2, ← (fakeShape_spec s).2]
    constructor
    · intro r h
      cases ha : fakeShape s with
      | none => simp [fakeInputs, ha] at h
      | some a =>
        cases hl : fakeInputs l with
        | none => simp [fakeInputs, ha, hl] at h
        | some q =>
          simp only [fakeInputs, ha, hl, Option.some.injEq] at h
          subst h
          obtain ⟨h1, h2⟩ := ih.1 q hl
          refine ⟨by simp [h1], fun i shape s' hi hs => ?_⟩
          cases i with
          | zero =>
            simp only [List.getElem?_cons_zero, Option.some.injEq] at hi hs
            subst hi; subst hs
            exact (fakeShape_spec s).1 a ha
          | succ i => exact h2 i shape s' (by simpa using hi) (by simpa using hs)
    · cases ha : fakeShape s with
      | none => simp [fakeInputs, ha]
      | some a => cases hl : fakeInputs l <;> simp [fakeInputs, ha, hl]

theorem lookup_replace {β : Type} (p : String × β) (k : String) : ∀ d : List (String × β), d.any (·.1 = p.1) = true →
    (d.map fun q => if q.1 = p.1 then p else q).lookup k = if k = p.1 then some p.2 else d.lookup k
  | [], h => by simp at h
  | q :: d, h => by
    obtain ⟨a, b⟩ := q
    obtain ⟨c, e⟩ := p
    by_cases hq : a = c
    · subst hq
      simp only [List.map_cons, if_true, List.lookup]
      by_cases hk : k = a
      · subst hk; simp
      · rw [if_neg hk, show (k == a) = false by simpa using hk]
        dsimp only
        by_cases hd : d.any (·.1 = a) = true
        · have := lookup_replace (a, e) k d hd
          rw [if_neg hk] at this
          exact this
        · congr 1
          conv_rhs => rw [← List.map_id d]
          refine List.map_congr_left fun x hx => ?_
          rw [if_neg]; rfl
          intro hx'
          exact hd (List.any_eq_true.mpr ⟨x, hx, by simpa using hx'⟩)
    · have hd : d.any (·.1 = c) = true := by
        simpa [hq] using h
      have ih := lookup_replace (c, e) k d hd
      simp only [List.map_cons, if_neg hq, List.lookup]
      by_cases hk : k = a
      · subst hk
        rw [beq_self_eq_true, if_neg hq]
      · rw [show (k == a) = false by simpa using hk]
        exact ih

theorem lookup_update {β : Type} (k : String) (o : List (String × β)) : ∀ d : List (String × β), (o.map (·.1)).Nodup →
    (update d o).lookup k = (o.lookup k).or (d.lookup k) := by
  unfold update
  induction o with
  | nil => intro d _; simp
  | cons p o ih =>
    intro d hn
    rw [List.map_cons, List.nodup_cons] at hn
    rw [List.foldl_cons, ih _ hn.2]
    obtain ⟨c, e⟩ := p
    have hstep : List.lookup k (if d.any (·.1 = c) = true then d.map (fun q => if q.1 = c then (c, e) else q) else d ++ [(c, e)])
        = if k = c then some e else d.lookup k := by
      by_cases h : d.any (·.1 = c) = true
      · rw [if_pos h]; exact lookup_replace (c, e) k d h
      · rw [if_neg h, List.lookup_append]
        by_cases hk : k = c
        · subst hk
          have : d.lookup k = none := by
            rw [List.lookup_eq_none_iff]
            intro q hq
            have := mt (fun hc => List.any_eq_true.mpr ⟨q, hq, hc⟩) h
            simp only [decide_eq_true_eq] at this
            simpa using fun hc : k = q.1 => this hc.symm
          rw [this, if_pos rfl]
          simp
        · rw [if_neg hk]
          simp only [List.lookup]
          rw [show (k == c) = false by simpa using hk, Option.or_none]
    have hs2 := hstep
    simp only [List.lookup] at hs2 ⊢
    rw [hs2]
    by_cases hk : k = c
    · subst hk
      have hno : o.lookup k = none := by
        rw [List.lookup_eq_none_iff]
        intro q hq
        simpa using fun hc : k = q.1 => hn.1 (List.mem_map.mpr ⟨q, hq, hc.symm⟩)
      rw [hno]; simp
    · rw [if_neg hk, show (k == c) = false by simpa using hk]

/-- **C121.**  Without unknown dimensions and overrides there are no polymorphic shapes.  Otherwise every feature of the preprocessor has a polymorphic batch size if some dimension of the signature is unknown, and a
fixed shape if none is; a feature with an override has that instead. -/
theorem C121_poly (signature : List (List (Option Nat))) (features : List (List Nat) → List String) (overrides : List (String × Option String))
    (ho : (overrides.map (·.1)).Nodup) (inputs : List (List Nat)) (hi : fakeInputs signature = some inputs) :
    (polyShapes signature features none = some none ↔ ∀ s ∈ signature, none ∉ s) ∧
      (polyShapes signature features (some overrides) = some none ↔ (∀ s ∈ signature, none ∉ s) ∧ overrides = []) ∧
      ∀ o, o = none ∨ o = some overrides → ∀ r, polyShapes signature features o = some (some r) → ∀ k,
        (∀ v, (o.getD []).lookup k = some v → r.lookup k = some v) ∧
        ((o.getD []).lookup k = none → ((∃ s ∈ signature, none ∈ s) → r.lookup k = if k ∈ features inputs then some (some "b, ...") else none) ∧
          ((∀ s ∈ signature, none ∉ s) → r.lookup k = if k ∈ features inputs then some none else none)) := by
  have hp : (signature.all fun s => s.all (·.isSome)) = true ↔ ∀ s ∈ signature, none ∉ s := by
    rw [List.all_eq_true]
    refine forall₂_congr fun s _ => ?_
    rw [List.all_eq_true]
    constructor
    · intro h hc; simpa using h none hc
    · intro h x hx
      cases x with
      | none => exact absurd hx h
      | some n => rfl
  have hlk : ∀ (v : Option String) (k : String) (l : List String), (l.map fun x => (x, v)).lookup k = if k ∈ l then some v else none := by
    intro v k l
    induction l with
    | nil => simp
    | cons a l ih =>
      simp only [List.map_cons, List.lookup, List.mem_cons]
      by_cases hk : k = a
      · subst hk; simp
      · rw [show (k == a) = false by simpa using hk, ih]; simp [hk]
  have hch : ∀ o : Option (List (String × Option String)), polyShapes signature features o =
      if (∀ s ∈ signature, none ∉ s) ∧ o.getD [] = [] then some none
      else some (some (update ((features inputs).map fun k => (k, if (∀ s ∈ signature, none ∉ s) then none else some "b, ...")) (o.getD []))) := by
    intro o
    unfold polyShapes
    rw [hi]
    by_cases h : ∀ s ∈ signature, none ∉ s
    · simp only [hp.mpr h, h, Bool.not_true, Bool.not_false, Bool.true_and]
      cases ho : o.getD [] with
      | nil =>
        have h1 : (∀ s ∈ signature, none ∉ s) ∧ ([] : List (String × Option String)) = [] := ⟨h, rfl⟩
        rw [if_pos h1]; rfl
      | cons a l =>
        have h1 : ¬ ((∀ s ∈ signature, none ∉ s) ∧ a :: l = []) := fun hc => nomatch hc.2
        rw [if_neg h1]
        simp only [if_pos h]
        rfl
    · have : (signature.all fun s => s.all (·.isSome)) = false := by
        rw [Bool.eq_false_iff]; exact fun hc => h (hp.mp hc)
      simp only [this, h, Bool.not_false, Bool.not_true, Bool.false_and, false_and, if_false, Bool.false_eq_true, if_true]
  refine ⟨?_, ?_, ?_⟩
  · rw [hch]
    by_cases h : ∀ s ∈ signature, none ∉ s <;> simp [h]
  · rw [hch]
    by_cases h : (∀ s ∈ signature, none ∉ s) ∧ overrides = []
    · simp [h]
    · have h1 : ¬ ((∀ s ∈ signature, none ∉ s) ∧ (some overrides).getD [] = []) := h
      rw [if_neg h1]
      exact ⟨fun hc => by simp at hc, fun hc => absurd hc h⟩
  · intro o hoo r hr k
    have hnd : ((o.getD []).map (·.1)).Nodup := by
      rcases hoo with rfl | rfl
      · simp
      · exact ho
    rw [hch] at hr
    by_cases hc : (∀ s ∈ signature, none ∉ s) ∧ o.getD [] = []
    · rw [if_pos hc] at hr
      simp at hr
    · rw [if_neg hc] at hr
      have hr := Option.some.inj (Option.some.inj hr)
      rw [← hr, lookup_update k _ _ hnd, hlk]
      refine ⟨fun v hv => by rw [hv]; rfl, fun hn => ?_⟩
      rw [hn, Option.none_or]
      refine ⟨fun ⟨s, hs, hm⟩ => ?_, fun h => ?_⟩
      · have h1 : ¬ ∀ s ∈ signature, none ∉ s := fun h => h s hs hm
        simp only [if_neg h1]
      · simp only [if_pos h]

example : fakeInputs [[none, some 4], [some 2]] = some [[1, 4], [2]] ∧ fakeInputs [[none, none]] = none ∧ fakeInputs [[none, some 0]] = none := by decide
example : polyShapes [[none, some 4]] (fun _ => ["encoder_input_tokens", "decoder_input_tokens"]) (some [("decoder_input_tokens", some "b, l"), ("x", none)])
    = some (some [("encoder_input_tokens", some "b, ..."), ("decoder_input_tokens", some "b, l"), ("x", none)]) ∧
    polyShapes [[some 2]] (fun _ => ["a"]) none = some none := by decide +kernel

end Verif.ExportFront
