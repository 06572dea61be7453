import Verif.Model.Sampling
/-
Vocabulary for the sampling theorems (C06).
-/
namespace Verif.Sampling.Spec
variable {P : Type}

/-- The row is `[x, prompt of length p, padding]`: positions `1..p` hold non-padding tokens,
later ones padding. -/
structure RightPadded (toks : List Int) (p : Nat) : Prop where
  lt : p < toks.length
  prompt : ∀ j, 1 ≤ j → j ≤ p → toks.getD j 0 ≠ 0
  pad : ∀ j, p < j → toks.getD j 0 = 0

/-- What sampling owes to a row with prompt length `p`, start index `i0` and length limit
`m`, if the model's samples for it are `s 0, s 1, ...`.  Output position `j` is
sequence position `j + 1`; sample `k` is for sequence position `i0 + k + 1`. -/
structure RowOutput (toks : List Int) (p i0 m : Nat) (eos : Int) (s : Nat → Int × P) (out : List Int) : Prop where
  length : out.length = toks.length
  /-- prompt tokens are returned unchanged -/
  prompt : ∀ j, j < p → out.getD j 0 = toks.getD (j + 1) 0
  /-- before an end marker is sampled, each output token is the model's sample -/
  sampled : ∀ k, p ≤ i0 + k → i0 + k < m → (∀ k' < k, p ≤ i0 + k' → (s k').1 ≠ eos) →
    out.getD (i0 + k) 0 = (s k).1
  /-- after a sampled end marker there is only padding -/
  after_eos : ∀ k j, p ≤ i0 + k → i0 + k < m → (s k).1 = eos → i0 + k < j → out.getD j 0 = 0
  /-- nothing is written beyond the length limit, nor between prompt and start index -/
  limit : ∀ j, m ≤ j → p ≤ j → out.getD j 0 = 0
  gap : ∀ j, p ≤ j → j < i0 → out.getD j 0 = 0

open Classical in
/-- Sum of the log probabilities of the sampled tokens up to and including the first end
marker. -/
noncomputable def sampledLogProb [AddCommMonoid P] (p i0 m : Nat) (eos : Int) (s : Nat → Int × P) : P :=
  ∑ k ∈ Finset.range (m - i0),
    if p ≤ i0 + k ∧ ∀ k' < k, p ≤ i0 + k' → (s k').1 ≠ eos then (s k).2 else 0

end Verif.Sampling.Spec
