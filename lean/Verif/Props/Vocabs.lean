import Verif.Model.Vocabs
/-
C83: a task whose vocabularies are not those of the model is refused.
-/
namespace Verif.Vocabs

variable {V : Type} [DecidableEq V]

namespace Spec

/-- A feature that counts when inputs and targets are not both present: one that is tokenized, or any if none is. -/
def Counts (fs : List (Name × Feature V)) (f : Feature V) : Prop :=
  (∃ n, (n, f) ∈ fs) ∧ (f.passThrough = true → ∀ n g, (n, g) ∈ fs → g.passThrough = true)

/-- The feature under a name. -/
def Has (fs : List (Name × Feature V)) (n : String) (f : Feature V) : Prop := PyDict.get fs n.toList = some f

end Spec
open Spec

theorem allSame_ok (first : V) (l : List V) (a b : V) :
    allSame first l = .ok (a, b) ↔ a = first ∧ b = first ∧ ∀ v ∈ l, v = first := by
  induction l with
  | nil => simp [allSame, eq_comm]
  | cons v l ih =>
    by_cases h : v = first
    · simp only [allSame, if_neg (not_not.2 h), ih, List.mem_cons]
      constructor
      · rintro ⟨h1, h2, h3⟩
        refine ⟨h1, h2, ?_⟩
        rintro x (rfl | hx)
        · exact h
        · exact h3 x hx
      · rintro ⟨h1, h2, h3⟩
        exact ⟨h1, h2, fun x hx => h3 x (.inr hx)⟩
    · simp only [allSame, if_pos h]
      constructor
      · intro e; cases e
      · rintro ⟨-, -, h3⟩
        exact absurd (h3 v (by simp)) h

theorem fromList_ok (l : List V) (a b : V) :
    fromList l = .ok (a, b) ↔ a = b ∧ l ≠ [] ∧ ∀ v ∈ l, v = a := by
  cases l with
  | nil =>
    simp only [fromList]
    constructor
    · intro e; cases e
    · rintro ⟨-, h, -⟩; exact absurd rfl h
  | cons v l =>
    rw [fromList, allSame_ok]
    constructor
    · rintro ⟨rfl, rfl, h⟩
      refine ⟨rfl, by simp, ?_⟩
      intro x hx
      rcases List.mem_cons.1 hx with rfl | hx
      · rfl
      · exact h x hx
    · rintro ⟨rfl, -, h⟩
      have hv := h v (by simp)
      subst hv
      exact ⟨rfl, rfl, fun x hx => h x (by simp [hx])⟩

/-- The vocabularies that are compared are those of the features that count. -/
theorem mem_considered (fs : List (Name × Feature V)) (v : V) :
    v ∈ (if (fs.filter fun f => !f.2.passThrough).map (fun f => f.2.vocab) = [] then fs.map fun f => f.2.vocab
      else (fs.filter fun f => !f.2.passThrough).map fun f => f.2.vocab) ↔ ∃ f, Counts fs f ∧ f.vocab = v := by
  split_ifs with h
  · rw [List.map_eq_nil_iff, List.filter_eq_nil_iff] at h
    constructor
    · intro hv
      obtain ⟨⟨n, f⟩, hf, rfl⟩ := List.mem_map.1 hv
      refine ⟨f, ⟨⟨n, hf⟩, ?_⟩, rfl⟩
      intro _ n' g hg
      simpa using h _ hg
    · rintro ⟨f, ⟨⟨n, hf⟩, -⟩, rfl⟩
      exact List.mem_map.2 ⟨(n, f), hf, rfl⟩
  · have hex : ∃ n g, (n, g) ∈ fs ∧ g.passThrough = false := by
      by_contra hc
      push Not at hc
      apply h
      rw [List.map_eq_nil_iff, List.filter_eq_nil_iff]
      rintro ⟨n, g⟩ hg
      have := hc n g hg
      simpa using this
    constructor
    · intro hv
      obtain ⟨⟨n, f⟩, hf, rfl⟩ := List.mem_map.1 hv
      rw [List.mem_filter] at hf
      have hp : f.passThrough = false := by simpa using hf.2
      exact ⟨f, ⟨⟨n, hf.1⟩, fun h' => by rw [hp] at h'; cases h'⟩, rfl⟩
    · rintro ⟨f, ⟨⟨n, hf⟩, h2⟩, rfl⟩
      refine List.mem_map.2 ⟨(n, f), ?_, rfl⟩
      rw [List.mem_filter]
      refine ⟨hf, ?_⟩
      obtain ⟨n', g, hg, hg'⟩ := hex
      cases hp : f.passThrough with
      | false => rfl
      | true =>
        have := h2 hp n' g hg
        rw [hg'] at this; cases this

/-- **C83** The vocabularies of a task: those of inputs and targets if it has both; otherwise the one vocabulary of all features that
count, for inputs and outputs alike; no other task has vocabularies. -/
theorem C83_vocabulary (fs : List (Name × Feature V)) (a b : V) :
    getVocabulary fs = .ok (a, b) ↔
      (∃ i t, Has fs "inputs" i ∧ Has fs "targets" t ∧ a = i.vocab ∧ b = t.vocab) ∨
      (¬ (∃ i t, Has fs "inputs" i ∧ Has fs "targets" t) ∧ a = b ∧ (∃ f, Counts fs f) ∧ ∀ f, Counts fs f → f.vocab = a) := by
  unfold Has
  cases hi : PyDict.get fs "inputs".toList with
  | some i =>
    cases ht : PyDict.get fs "targets".toList with
    | some t =>
      simp only [getVocabulary, hi, ht]
      constructor
      · intro e
        cases e
        exact .inl ⟨i, t, rfl, rfl, rfl, rfl⟩
      · rintro (⟨i', t', h1, h2, rfl, rfl⟩ | ⟨h, -⟩)
        · cases h1; cases h2; rfl
        · exact absurd ⟨i, t, rfl, rfl⟩ h
    | none =>
      simp only [getVocabulary, hi, ht, fromList_ok]
      constructor
      · rintro ⟨h1, h2, h3⟩
        right
        refine ⟨(by rintro ⟨_, _, _, h⟩; cases h), h1, ?_, ?_⟩
        · obtain ⟨x, hx⟩ := List.exists_mem_of_ne_nil _ h2
          obtain ⟨f, hf, -⟩ := (mem_considered fs x).1 hx
          exact ⟨f, hf⟩
        · intro f hf
          exact h3 _ ((mem_considered fs f.vocab).2 ⟨f, hf, rfl⟩)
      · rintro (⟨_, _, _, h, _⟩ | ⟨-, h1, ⟨f, hf⟩, h3⟩)
        · cases h
        · refine ⟨h1, List.ne_nil_of_mem ((mem_considered fs f.vocab).2 ⟨f, hf, rfl⟩), ?_⟩
          intro v hv
          obtain ⟨g, hg, rfl⟩ := (mem_considered fs v).1 hv
          exact h3 g hg
  | none =>
    simp only [getVocabulary, hi, fromList_ok]
    constructor
    · rintro ⟨h1, h2, h3⟩
      right
      refine ⟨(by rintro ⟨_, _, h, _⟩; cases h), h1, ?_, ?_⟩
      · obtain ⟨x, hx⟩ := List.exists_mem_of_ne_nil _ h2
        obtain ⟨f, hf, -⟩ := (mem_considered fs x).1 hx
        exact ⟨f, hf⟩
      · intro f hf
        exact h3 _ ((mem_considered fs f.vocab).2 ⟨f, hf, rfl⟩)
    · rintro (⟨_, _, h, _⟩ | ⟨-, h1, ⟨f, hf⟩, h3⟩)
      · cases h
      · refine ⟨h1, List.ne_nil_of_mem ((mem_considered fs f.vocab).2 ⟨f, hf, rfl⟩), ?_⟩
        intro v hv
        obtain ⟨g, hg, rfl⟩ := (mem_considered fs v).1 hv
        exact h3 g hg

/-- **C83** A task passes the check exactly if its inputs have the input vocabulary and its targets the output vocabulary of the model;
or, if it does not have both features, the model has one vocabulary and every feature that counts has that one. -/
theorem C83_verify (fs : List (Name × Feature V)) (inV outV : V) :
    verifyMatching fs inV outV = .ok () ↔
      (∃ i t, Has fs "inputs" i ∧ Has fs "targets" t ∧ i.vocab = inV ∧ t.vocab = outV) ∨
      (¬ (∃ i t, Has fs "inputs" i ∧ Has fs "targets" t) ∧ inV = outV ∧ (∃ f, Counts fs f) ∧ ∀ f, Counts fs f → f.vocab = inV) := by
  have h := C83_vocabulary fs inV outV
  have e : verifyMatching fs inV outV = .ok () ↔ getVocabulary fs = .ok (inV, outV) := by
    unfold verifyMatching
    cases hg : getVocabulary fs with
    | error e => simp
    | ok p =>
      obtain ⟨a, b⟩ := p
      by_cases hc : a ≠ inV ∨ b ≠ outV
      · simp only [if_pos hc]
        constructor
        · intro e; cases e
        · intro e; cases e; simp at hc
      · simp only [if_neg hc]
        push Not at hc
        simp [hc.1, hc.2]
  rw [e, h]
  constructor
  · rintro (⟨i, t, h1, h2, h3, h4⟩ | h)
    · exact .inl ⟨i, t, h1, h2, h3.symm, h4.symm⟩
    · exact .inr h
  · rintro (⟨i, t, h1, h2, h3, h4⟩ | h)
    · exact .inl ⟨i, t, h1, h2, h3.symm, h4.symm⟩
    · exact .inr h

/-- **C83** Other features of a task with inputs and targets are not compared: they may have any vocabulary. -/
theorem C83_others_unchecked (v w : V) (extra : Name) (f : Feature V) :
    verifyMatching [("inputs".toList, ⟨v, false⟩), ("targets".toList, ⟨w, false⟩), (extra, f)] v w = .ok () := by
  rw [C83_verify]
  left
  refine ⟨⟨v, false⟩, ⟨w, false⟩, ?_, ?_, rfl, rfl⟩
  · unfold Has; rw [PyDict.get, if_pos rfl]
  · have : ¬ "inputs".toList = "targets".toList := by decide
    unfold Has; rw [PyDict.get, if_neg this, PyDict.get, if_pos rfl]

/-! ### Non-vacuity -/

example : getVocabulary [("inputs".toList, (⟨1, false⟩ : Feature Nat)), ("targets".toList, ⟨2, false⟩)] = .ok (1, 2) := rfl
example : getVocabulary [("inputs".toList, (⟨1, true⟩ : Feature Nat)), ("text".toList, ⟨2, false⟩)] = .ok (2, 2) := rfl
example : getVocabulary [("inputs".toList, (⟨1, false⟩ : Feature Nat)), ("text".toList, ⟨2, false⟩)] = .error .different := rfl
example : verifyMatching [("targets".toList, (⟨2, false⟩ : Feature Nat))] 2 2 = .ok () := rfl
example : verifyMatching [("targets".toList, (⟨2, false⟩ : Feature Nat))] 1 2 = .error .noMatch := rfl
example : verifyMatching ([] : List (Name × Feature Nat)) 1 2 = .error .noVocab := rfl

end Verif.Vocabs
