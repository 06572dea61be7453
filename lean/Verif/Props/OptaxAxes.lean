import Verif.Lemmas.OptaxAxes
namespace Verif.OptaxAxes
open Verif.StateDict
open Verif.OptaxState.Spec (arrayAt SameShape ProperDict)
open Verif.OptaxAxes.Spec

variable {A X : Type}

/-- **C74.** For every state built from the supported transformations, the derived axes have exactly the structure of the state; an array that
belongs to a parameter has that parameter's axes, and every other array has `None`. -/
theorem C74_axes (axes : Dict X) (s : State A) (h : StateFor axes none s) (hp : ProperDict (nones s : Dict (Option X))) :
    ∃ d, deriveLogicalAxes axes s = .ok d ∧ SameShape (nones s) d ∧
      ∀ q, arrayAt (nones s : Dict (Option X)) q ≠ none → arrayAt d q = some ((paramOf none s q).bind (arrayAt axes)) := by
  obtain ⟨d, hd, hs, hq⟩ := derive_spec axes s none h hp
  have hd' : derive axes none s = .ok d := hd
  exact ⟨d, by simp only [deriveLogicalAxes, hd', restoreState_same _ _ hs (sameShape_proper hs hp)], hs, hq⟩

/-- **C74.** A state of a class without a rule is never given axes: the derivation fails. -/
theorem C74_unregistered (axes : Dict X) (s : State A) (h : HasUnregistered none s) : ∃ e, deriveLogicalAxes axes s = .error e := by
  obtain ⟨e, he⟩ := derive_other axes s none h
  have he' : derive axes none s = .error e := he
  exact ⟨e, by simp only [deriveLogicalAxes, he']⟩

/-- **C74.** The rule for `optax.zero_nans` cannot be used: the state holds one flag per parameter, the rule gives one `None`, and restoring fails. -/
theorem C74_zero_nans (axes : Dict X) (k : Key) (c r : State A) (h : StateFor axes none r)
    (hp : ProperDict (nones (.named k .zeroNans (.node "found_nan".toList c .nil) r) : Dict (Option X)))
    (q : List Key) (hq : arrayAt (nones c : Dict (Option X)) q ≠ none) :
    deriveLogicalAxes axes (.named k .zeroNans (.node "found_nan".toList c .nil) r) = .error .missing := by
  obtain ⟨d, hd, hs, -⟩ := derive_spec axes r none h hp.2.2.2
  have hd' : derive axes none r = .ok d := hd
  have h1 : derive axes none (.named k .zeroNans (.node "found_nan".toList c .nil) r) =
      .ok (.sub k (.leaf "found_nan".toList none .nil) d) := by
    simp only [derive, hd', ruleOf, rules, List.lookup_cons, beq_self_eq_true]
  have hpd : ProperDict (.sub k (.leaf "found_nan".toList none .nil) d : Dict (Option X)) :=
    ⟨hp.1, by rw [← OptaxState.SameShape.keys hs]; exact hp.2.1, Or.inr ⟨by decide, by simp [Dict.keys], trivial⟩,
      sameShape_proper hs hp.2.2.2⟩
  have hne : q ≠ [] := fun e => hq (by rw [e]; exact Fallback.arrayAt_nil _)
  rw [deriveLogicalAxes, h1]
  simp only []
  rw [restoreState_missing _ _ hp hpd (k :: "found_nan".toList :: q)]
  · rw [nones, Fallback.arrayAt_sub, if_pos rfl, nones, Fallback.arrayAt_sub, if_pos rfl]
    exact hq
  · rw [Fallback.arrayAt_sub, if_pos rfl, Fallback.arrayAt_leaf, if_pos rfl, if_neg hne]

/-- **C74.** Gradient accumulation inside a masked transformation cannot be used: the rule gives axes to masked parameters. -/
theorem C74_masked_accumulation : deriveLogicalAxes (.leaf ['w'] 0 (.leaf ['v'] 1 .nil))
    (.named ['0'] .masked (.named "inner_state".toList .multiSteps (.arr "mini_step".toList () (.arr "gradient_step".toList ()
      (.named "inner_opt_state".toList .empty .nil (.node "acc_grads".toList (.masked ['w'] (.arr ['v'] () .nil))
        (.node "skip_state".toList .nil .nil))))) .nil) .nil) = .error .bad := by rfl

/-- **C74.** The rule for SM3 cannot be used: `mu` holds a list of arrays per parameter. -/
theorem C74_sm3 : deriveLogicalAxes (.leaf ['w'] 0 .nil)
    (.named ['0'] .sm3 (.node "mu".toList (.node ['w'] (.arr ['0'] () (.arr ['1'] () .nil)) .nil) (.node "nu".toList (.arr ['w'] () .nil) .nil)) .nil) =
      .error .missing := by rfl

/-! Clipping, Adam for all but a masked bias, under gradient accumulation with an injected learning rate. -/

/-- Whether a dict is proper can be decided. -/
def properDec : (d : Dict X) → Decidable (StateDict.Spec.Proper (fun _ => false) d)
  | .nil => isTrue trivial
  | .leaf k _ r => @instDecidableAnd _ _ _ (@instDecidableAnd _ _ _ (properDec r))
  | .sub k d r => @instDecidableAnd _ _ _ (@instDecidableAnd _ _ _ (@instDecidableAnd _ _ (@instDecidableOr _ _ _ (properDec d)) (properDec r)))
instance (d : Dict X) : Decidable (ProperDict d) := properDec d

def exAxes : Dict (List Nat) := .sub ['l'] (.leaf ['k'] [0, 1] (.leaf ['b'] [1] .nil)) .nil
def exMoment : State Unit := .node ['l'] (.arr ['k'] () (.masked ['b'] .nil)) .nil
def exAdam : State Unit :=
  .named "inner_state".toList .adam (.arr "count".toList () (.node "mu".toList exMoment (.node "nu".toList exMoment .nil))) .nil
def exInject : State Unit :=
  .named ['1'] .injectHyperparams (.arr "count".toList () (.node "hyperparams".toList (.arr "learning_rate".toList () .nil) exAdam)) .nil
def exState : State Unit :=
  .named ['0'] .multiSteps (.arr "mini_step".toList () (.arr "gradient_step".toList ()
    (.node "inner_opt_state".toList (.named ['0'] .empty .nil exInject)
      (.node "acc_grads".toList (.node ['l'] (.arr ['k'] () (.arr ['b'] () .nil)) .nil) (.node "skip_state".toList .nil .nil))))) .nil

theorem exState_for : StateFor exAxes none exState := by
  refine ⟨rfl, ⟨_, rfl, ⟨Or.inl rfl, ⟨Or.inl rfl, ⟨Or.inr (Or.inr (Or.inl ⟨rfl, ?_⟩)), ⟨Or.inr (Or.inl ⟨rfl, ?_⟩), ?_⟩⟩⟩⟩⟩, trivial⟩
  · refine ⟨rfl, ⟨_, rfl, trivial⟩, rfl, ⟨_, rfl, Or.inl rfl, Or.inr (Or.inr (Or.inr (Or.inl rfl))), ?_⟩, trivial⟩
    refine ⟨rfl, ⟨_, rfl, Or.inl rfl, Or.inl ⟨rfl, ?_⟩, Or.inl ⟨rfl, ?_⟩, trivial⟩, trivial⟩ <;>
      exact ⟨rfl, ⟨rfl, rfl, rfl, trivial⟩, trivial⟩
  · exact ⟨rfl, ⟨rfl, rfl, trivial⟩, trivial⟩
  · exact ⟨Or.inr (Or.inr (Or.inr (Or.inr ⟨rfl, rfl⟩))), trivial⟩
theorem exState_proper : ProperDict (nones exState : Dict (Option (List Nat))) := by decide
example : ∃ d, deriveLogicalAxes exAxes exState = .ok d ∧
    arrayAt d ["0".toList, "inner_opt_state".toList, "1".toList, "inner_state".toList, "mu".toList, ['l'], ['k']] = some (some [0, 1]) ∧
    arrayAt d ["0".toList, "inner_opt_state".toList, "1".toList, "hyperparams".toList, "learning_rate".toList] = some none ∧
    arrayAt d ["0".toList, "acc_grads".toList, ['l'], ['b']] = some (some [1]) := by
  obtain ⟨d, hd, -, hq⟩ := C74_axes exAxes exState exState_for exState_proper
  refine ⟨d, hd, ?_, ?_, ?_⟩
  · rw [hq _ (by decide)]; decide
  · rw [hq _ (by decide)]; decide
  · rw [hq _ (by decide)]; decide
example : HasUnregistered none (.node ['0'] (.named ['0'] .masked (.named "inner_state".toList .other .nil .nil) .nil) .nil : State Unit) :=
  Or.inl ⟨rfl, Or.inl ⟨rfl, Or.inr ⟨_, rfl, Or.inl ⟨rfl, Or.inl rfl⟩⟩⟩⟩
example : StateFor exAxes none (.named ['1'] .trace (.node "trace".toList exMoment .nil) .nil : State Unit) ∧
    ProperDict (nones (.named ['0'] .zeroNans (.node "found_nan".toList exMoment .nil)
      (.named ['1'] .trace (.node "trace".toList exMoment .nil) .nil)) : Dict (Option (List Nat))) ∧
    arrayAt (nones exMoment : Dict (Option (List Nat))) [['l'], ['k']] ≠ none := by
  refine ⟨⟨rfl, ⟨_, rfl, Or.inl ⟨rfl, rfl, ⟨rfl, rfl, rfl, trivial⟩, trivial⟩, trivial⟩, trivial⟩, by decide, by decide⟩

end Verif.OptaxAxes
