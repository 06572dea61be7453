import Verif.Model.Chunk
/- What `_choose_chunk_shape` promises. -/
namespace Verif.Chunk.Spec

/-- A chunk shape for a write shape: same rank, each size a positive divisor, few enough elements. -/
structure Fits (shape : List ℕ) (target : ℕ) (r : List ℕ) : Prop where
  rank : r.length = shape.length
  divides : ∀ i (h : i < r.length) (h' : i < shape.length), 0 < r[i] ∧ r[i] ∣ shape[i]
  budget : r.prod ≤ target

/-- d is the next larger divisor of n after a. -/
def NextDivisor (n a d : ℕ) : Prop := a < d ∧ d ∣ n ∧ ∀ e, a < e → e ∣ n → d ≤ e

end Verif.Chunk.Spec
