import Verif.Model.Dropout
import Verif.Props.DecoderOnly
/-
Random bits, expectations, and when two rows are given the same dropout.
-/
namespace Verif.Dropout.Spec
open Verif.Transformer Verif.Transformer.Spec

/-- The probability of the given bits if they are drawn independently, each of them being true with probability q. -/
noncomputable def prob {S : Type} [Fintype S] (q : ℝ) (keep : S → Bool) : ℝ := ∏ s, if keep s then q else 1 - q

/-- The expectation of a function of the bits. -/
noncomputable def expect {S : Type} [Fintype S] [DecidableEq S] (q : ℝ) (F : (S → Bool) → ℝ) : ℝ := ∑ keep : S → Bool, prob q keep * F keep

variable {n1 m1 n2 m2 d h e f V N M : Nat}

/-- Two entries of the masks play the same role for two rows, if the decoder positions have moved by δ and the encoder positions by δe. -/
inductive Moved (δ δe : ℤ) : Site n1 m1 d h f N M → Site n2 m2 d h f N M → Prop
  | encInput (c : Fin d) : Moved δ δe (.encInput c) (.encInput c)
  | encAttention (l : Fin N) (hd : Fin h) (k : Fin m1) (k' : Fin m2) : (k'.val : ℤ) = k.val + δe →
      Moved δ δe (.encAttention l hd k) (.encAttention l hd k')
  | encPost (l : Fin N) (c : Fin d) : Moved δ δe (.encPost l c) (.encPost l c)
  | encInner (l : Fin N) (c : Fin f) : Moved δ δe (.encInner l c) (.encInner l c)
  | encPostMlp (l : Fin N) (c : Fin d) : Moved δ δe (.encPostMlp l c) (.encPostMlp l c)
  | encOutput (k : Fin m1) (k' : Fin m2) (c : Fin d) : (k'.val : ℤ) = k.val + δe → Moved δ δe (.encOutput k c) (.encOutput k' c)
  | decInput (c : Fin d) : Moved δ δe (.decInput c) (.decInput c)
  | decSelf (l : Fin M) (hd : Fin h) (k : Fin n1) (k' : Fin n2) : (k'.val : ℤ) = k.val + δ → Moved δ δe (.decSelf l hd k) (.decSelf l hd k')
  | decPostSelf (l : Fin M) (c : Fin d) : Moved δ δe (.decPostSelf l c) (.decPostSelf l c)
  | decCross (l : Fin M) (hd : Fin h) (k : Fin m1) (k' : Fin m2) : (k'.val : ℤ) = k.val + δe → Moved δ δe (.decCross l hd k) (.decCross l hd k')
  | decPostCross (l : Fin M) (c : Fin d) : Moved δ δe (.decPostCross l c) (.decPostCross l c)
  | decInner (l : Fin M) (c : Fin f) : Moved δ δe (.decInner l c) (.decInner l c)
  | decPostMlp (l : Fin M) (c : Fin d) : Moved δ δe (.decPostMlp l c) (.decPostMlp l c)
  | decOutput (c : Fin d) : Moved δ δe (.decOutput c) (.decOutput c)

/-- The same for the decoder-only network. -/
inductive LmMoved (δ : ℤ) : LmSite n1 d h f N → LmSite n2 d h f N → Prop
  | input (c : Fin d) : LmMoved δ (.input c) (.input c)
  | attention (l : Fin N) (hd : Fin h) (k : Fin n1) (k' : Fin n2) : (k'.val : ℤ) = k.val + δ → LmMoved δ (.attention l hd k) (.attention l hd k')
  | post (l : Fin N) (c : Fin d) : LmMoved δ (.post l c) (.post l c)
  | inner (l : Fin N) (c : Fin f) : LmMoved δ (.inner l c) (.inner l c)
  | postMlp (l : Fin N) (c : Fin d) : LmMoved δ (.postMlp l c) (.postMlp l c)
  | output (c : Fin d) : LmMoved δ (.output c) (.output c)

/-- Two rows have the same dropout, where they correspond. -/
def SameKeep (δ δe : ℤ) (k1 : Site n1 m1 d h f N M → Bool) (k2 : Site n2 m2 d h f N M → Bool) : Prop := ∀ s t, Moved δ δe s t → k1 s = k2 t

/-- The same for the decoder-only network. -/
def LmSameKeep (δ : ℤ) (k1 : LmSite n1 d h f N → Bool) (k2 : LmSite n2 d h f N → Bool) : Prop := ∀ s t, LmMoved δ s t → k1 s = k2 t

/-- As `Transformer.Spec.Tame`.  The encoder's output is divided by the probability of keeping an entry, so the bound for the attention to it
is more strict. -/
structure TameTrain (net : TrainNet d h e f V N M) (rate θ B : ℝ) : Prop where
  tame : Tame net.toNet θ B
  rate0 : 0 ≤ rate
  rate1 : rate < 1
  cross : ∀ l hd, logitBound (net.dec l).cross (net.dec l).preCross net.encNorm 0 hd / (1 - rate) ≤ B

/-- The logits of the target positions are all that the function looks at. -/
def OnTargets {n : Nat} (targets : Masks.Row n) (F : (Fin n → Vec V) → ℝ) : Prop := ∀ y y', (∀ i, targets i > 0 → y i = y' i) → F y = F y'

end Verif.Dropout.Spec
