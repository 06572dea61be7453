import Verif.Model.Bytes
import Mathlib.Algebra.BigOperators.Group.Finset.Basic
/- Vocabulary for C25. -/
namespace Verif.Bytes.Spec
open Verif.Bytes

/-- Bytes asked for by the writers that hold them, through condition variable j. -/
def heldOn (s : Sys) (st : State) (j : ℕ) : ℕ :=
  ∑ i ∈ Finset.range s.sizes.length, if st.pc i = .holding ∧ s.cvOf i = j then request s.limit (s.sizes.getD i 0) else 0

/-- Bytes of the arrays being written at this moment. -/
def inFlight (s : Sys) (st : State) : ℕ :=
  ∑ i ∈ Finset.range s.sizes.length, if st.pc i = .holding then s.sizes.getD i 0 else 0

def allDone (s : Sys) (st : State) : Prop := ∀ i < s.sizes.length, st.pc i = .done

end Verif.Bytes.Spec
