import Verif.Model.DecoderOnly
import Verif.Spec.SampleLaw
/-
What a decoder-only model should return for a prompt (C111).
-/
namespace Verif.LmPredict.Spec
open Verif.DecoderOnly Verif.Transformer Verif.Masks Verif.Score

variable {d h e f V : Nat}

/-- The decoder inputs of a row that holds the prompt `x` and the tokens `z` after it and nothing else: the start token 0, then the text. -/
def textRow (x z : List Int) : Row (x.length + z.length + 1) := fun j => if j.val = 0 then 0 else (x ++ z).getD (j.val - 1) 0

/-- 1 on the start token and the prompt. -/
def promptMask (n : Nat) (x : List Int) : Row n := fun j => if j.val ≤ x.length then 1 else 0

/-- The logits for the token after `x` and `z`: those at the last position in the forward pass over this text, the one of training. -/
noncomputable def nextLogits (ex : ℝ → ℝ) (lg : ℕ → ℝ) (net : LmNet d h e f V) (bidirectional : Bool) (x z : List Int) : Vec V :=
  ((apply ex lg net ⟨textRow x z, fun _ => 1, if bidirectional then some (promptMask _ x) else none, none⟩).map fun y => y (Fin.last _)).getD
    fun _ => 0

/-- A row of a batch with the prompt `x`: the start token, the prompt, and then anything, which `decoder_causal_attention` excludes. -/
structure Holds {n : Nat} (r : LMRow n) (x : List Int) : Prop where
  fits : x.length < n
  tokens : ∀ t ∈ x, 0 < t
  start : ∀ j : Fin n, j.val = 0 → r.inputs j = 0
  prompt : ∀ j : Fin n, 1 ≤ j.val → j.val ≤ x.length → r.inputs j = x.getD (j.val - 1) 0
  causal : ∀ j, r.causal j = promptMask n x j

/-- How many tokens can be generated after `x` in a row of `n` positions. -/
def room (n : Nat) (maxSteps : Option Nat) (x : List Int) : Nat :=
  match maxSteps with
  | none => n - x.length
  | some s => min (n - x.length) s

open Classical in
/-- `y` is generated from left to right, with `draw k` as the choice of token `k` from the logits that follow what was generated before, up to an
end marker or `m` tokens; then there is padding.  `lp` is the sum of the log-probabilities of these choices. -/
structure Continuation (logits : List Int → Vec V) (draw : Nat → Vec V → Fin V × ℝ) (eos : Int) (m : Nat) (y : List Int) (lp : ℝ) : Prop where
  tokens : ∀ k < m, (∀ i < k, y.getD i 0 ≠ eos) → y.getD k 0 = ((draw k (logits (y.take k))).1.val : Int)
  ended : ∀ k j, k < j → y.getD k 0 = eos → y.getD j 0 = 0
  limit : ∀ k, m ≤ k → y.getD k 0 = 0
  score : lp = ∑ k ∈ Finset.range m, if ∀ i < k, y.getD i 0 ≠ eos then (draw k (logits (y.take k))).2 else 0

open Classical in
/-- The probability of a continuation, in a row of `n` positions: the product of the probabilities of its tokens, each given the prompt and the
tokens before. -/
noncomputable def contProb [NeZero V] (c : SampleToken.Cfg) (T : ℝ) (logits : List Int → Vec V) (eos : Int) (n m : Nat) (y : List Int) : ℝ :=
  if y.length = n ∧ (∀ k j, k < j → y.getD k 0 = eos → y.getD j 0 = 0) ∧ ∀ k, m ≤ k → y.getD k 0 = 0 then
    ∏ k ∈ (Finset.range m).filter fun k => ∀ i < k, y.getD i 0 ≠ eos, SampleLaw.Spec.tokenProb c T (logits (y.take k)) (y.getD k 0)
  else 0

end Verif.LmPredict.Spec
