import Verif.Lemmas.OptaxState
namespace Verif.OptaxState
open Verif Verif.StateDict Verif.StateDict.Spec Spec

variable {α : Type}

/-- **C46.** Restoring a state of the wrapped optimizer from its own state dict, with any template of the same shape, gives
back exactly the parameters and the state, empty sub-states included. -/
theorem C46_round_trip (target state target' state' : Dict α) (ht : SameShape target' target) (hs : SameShape state' state)
    (hpt : ProperDict target) (hps : ProperDict state) :
    ∃ sd, optaxStateDict target state = some sd ∧ optaxRestore target' state' sd = .ok (target, state) := by
  refine ⟨(target, prune state), by rw [optaxStateDict, stateDict_eq state hps]; rfl, ?_⟩
  simp only [optaxRestore, fromStateDict_self target' target ht hpt, restoreState_prune state' state hs hps]

/-- **C46.** The serialised state holds the same arrays at the same paths and no empty dict, so a checkpoint writer that
drops empty dicts loses nothing. -/
theorem C46_no_empty (target state : Dict α) (hps : ProperDict state) :
    ∃ s, optaxStateDict target state = some (target, s) ∧ NoEmptyDict s ∧ ∀ p, arrayAt s p = arrayAt state p := by
  refine ⟨prune state, by rw [optaxStateDict, stateDict_eq state hps]; rfl, (prune_proper state hps).2, ?_⟩
  exact fun p => arrayAt_eq_of_paths _ _ (prune_proper state hps).1 hps (prune_paths state) p

/-- **C46.** A state dict without an array that the state needs is rejected. -/
theorem C46_missing (target state : Dict α) (sd : Dict α × Dict α) (hps : ProperDict state) (hpd : ProperDict sd.2)
    (ht : fromStateDict target sd.1 ≠ none) (p : List Key) (h : arrayAt state p ≠ none) (hm : arrayAt sd.2 p = none) :
    optaxRestore target state sd = .error .missing := by
  cases hf : fromStateDict target sd.1 with
  | none => exact absurd hf ht
  | some t =>
    obtain ⟨a, ha⟩ := Option.ne_none_iff_exists'.mp h
    have hmem : (p, Val.arr a) ∈ paths F false state := (mem_paths F state hps p _).2 ((arrayAt_leafAt p a state).1 ha)
    rw [← paths_nonempty, List.mem_filter] at hmem
    have hadd : addEmpty (flat true state) (flat false sd.2) = .error .missing := by
      refine addEmpty_missing (join p) a _ _ (keys_flat_nodup true state hps) ?_ ?_
      · rw [flat_eq true state hps]
        exact List.mem_map.mpr ⟨_, hmem.1, rfl⟩
      · intro hk
        rw [flat_eq false sd.2 hpd] at hk
        obtain ⟨y, hy, hyk⟩ := List.mem_map.mp hk
        obtain ⟨z, hz, rfl⟩ := List.mem_map.mp hy
        dsimp only at hyk
        have hp : z.1 = p := join_inj _ _ (paths_ne_nil _ _ _ z hz) (paths_ne_nil _ _ _ _ hmem.1)
          (paths_no_sep _ _ _ hpd z hz) (paths_no_sep _ _ _ hps _ hmem.1) hyk
        have hl := (mem_paths F sd.2 hpd z.1 z.2).1 hz
        obtain ⟨b, hb⟩ := leafAt_arr _ _ _ hl
        rw [hb, hp] at hl
        rw [(arrayAt_leafAt p b sd.2).2 hl] at hm
        cases hm
    simp only [optaxRestore, hf, restoreState, hadd]

/-- **C46.** The plain optimizers round-trip as well. -/
theorem C46_plain (target state target' state' : Dict α) (ht : SameShape target' target) (hs : SameShape state' state)
    (hpt : ProperDict target) (hps : ProperDict state) :
    plainRestore target' state' (plainStateDict target state) = .ok (target, state) := by
  simp only [plainRestore, plainStateDict, fromStateDict_self target' target ht hpt, fromStateDict_self state' state hs hps]

/-! A chain of a clipping transformation without state and Adam: the first sub-state is empty. -/

def exState (x y : Nat) : Dict Nat :=
  .sub ['0'] .nil (.sub ['1'] (.leaf "count".toList x (.sub "mu".toList (.leaf ['w'] y .nil) .nil)) .nil)
def exTarget (x : Nat) : Dict Nat := .leaf ['w'] x .nil

example : SameShape (exState 0 0) (exState 3 7) ∧ ProperDict (exState 3 7) ∧ SameShape (exTarget 0) (exTarget 5) ∧
    ProperDict (exTarget 5) := by
  refine ⟨by simp [exState, SameShape], ?_, by simp [exTarget, SameShape], ?_⟩ <;>
    simp [ProperDict, StateDict.Spec.Proper, exState, exTarget, Dict.keys] <;> decide
example : (optaxStateDict (exTarget 5) (exState 3 7)).map Prod.snd =
    some (.sub ['1'] (.leaf "count".toList 3 (.sub "mu".toList (.leaf ['w'] 7 .nil) .nil)) .nil) := by decide
example : (∃ sd, optaxStateDict (exTarget 5) (exState 3 7) = some sd ∧
    optaxRestore (exTarget 0) (exState 0 0) sd = .ok (exTarget 5, exState 3 7)) := by
  refine C46_round_trip _ _ _ _ (by simp [exTarget, SameShape]) (by simp [exState, SameShape]) ?_ ?_ <;>
    simp [ProperDict, StateDict.Spec.Proper, exState, exTarget, Dict.keys] <;> decide
example : arrayAt (exState 3 7) ["1".toList, "mu".toList, ['w']] = some 7 ∧
    arrayAt (.sub ['1'] (.leaf "count".toList 3 .nil) .nil : Dict Nat) ["1".toList, "mu".toList, ['w']] = none ∧
    fromStateDict (exTarget 0) (exTarget 5) ≠ none := by decide
/-- Without putting the empty states back, flax would reject the state dict. -/
example : fromStateDict (exState 0 0)
    (.sub ['1'] (.leaf "count".toList 3 (.sub "mu".toList (.leaf ['w'] 7 .nil) .nil)) .nil) = none := by decide

end Verif.OptaxState
