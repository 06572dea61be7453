import Verif.Model.InferLines
/-
What a line of the output file has to say about an example.
-/
namespace Verif.InferLines.Spec
open Verif.InferLines

variable {V J : Type}

/-- Whether a field of the example is shown: all; or the ones asked for, under their own name or as pretokenized text; or all
pretokenized texts. -/
def Shown (o : Opts) (k : Name) : Prop :=
  o.includeAll = true ∨
  (o.includeAll = false ∧ ∃ fs, o.fields = some fs ∧ (k ∈ fs ∨ ∃ f ∈ fs, k = f ++ "_pretokenized".toList)) ∨
  (o.includeAll = false ∧ o.fields = none ∧ ∃ f, k = f ++ "_pretokenized".toList)

open Classical in
/-- The entries are those of the dict whose key satisfies `P`, in their order, with converted values. -/
def Entries (compat : V → Option J) (P : Name → Prop) (d : List (Name × V)) (r : List (Name × J)) : Prop :=
  List.Forall₂ (fun e j => j.1 = e.1 ∧ compat e.2 = some j.2) (d.filter fun e => decide (P e.1)) r

/-- `ids` are the tokens before the first padding token. -/
def BeforePadding (l ids : List Int) : Prop := ∃ rest, l = ids ++ rest ∧ 0 ∉ ids ∧ (rest = [] ∨ rest.head? = some 0)

/-- The token ids shown with a prediction: without padding, or all decodes as they are. -/
def TokensOf (p : Pred V) (ids : Ids) : Prop :=
  (∃ l r, p = .row l ∧ ids = .row r ∧ BeforePadding l r) ∨ ∃ l, p = .rows l ∧ ids = .rows l

/-- What a line says about the example `inp` with the prediction `p` and the auxiliary values `av`. -/
structure Says (compat : V → Option J) (decode : Pred V → Option V) (o : Opts) (inp : List (Name × V)) (p : Pred V)
    (av : List (Name × V)) (l : Line J) : Prop where
  inputs : Entries compat (Shown o) inp l.inputs
  known : o.mode = "predict".toList ∨ o.mode = "score".toList ∨ o.mode = "predict_with_aux".toList
  prediction : o.mode ≠ "score".toList → ∃ v j, decode p = some v ∧ compat v = some j ∧ l.prediction = some j
  tokens : o.mode ≠ "score".toList → o.outputIds = true → ∃ ids, l.tokens = some ids ∧ TokensOf p ids
  noTokens : o.outputIds = false → l.tokens = none
  noScore : o.mode ≠ "score".toList → l.score = none
  score : o.mode = "score".toList → l.prediction = none ∧ l.tokens = none ∧ ∃ v j, p = .score v ∧ compat v = some j ∧ l.score = some j
  aux : o.mode = "predict_with_aux".toList ∨ (o.mode = "score".toList ∧ av ≠ []) →
    ∃ a, l.aux = some a ∧ Entries compat (fun _ => True) av a
  noAux : o.mode = "predict".toList ∨ (o.mode = "score".toList ∧ av = []) → l.aux = none

/-- The auxiliary values of example `i`. -/
def AuxOf (aux : List (Name × List V)) (i : Nat) (a : List (Name × V)) : Prop :=
  List.Forall₂ (fun e x => x.1 = e.1 ∧ e.2[i]? = some x.2) aux a

end Verif.InferLines.Spec
