import Verif.Model.SaveRestore
import Verif.Spec.TsPath
/- What saving and restoring a train state should do. -/
namespace Verif.SaveRestore.Spec
open Verif.StateDict Verif.SaveRestore
open Verif.TsPath (Str)

/-- Two trees with the same entries in the same order, whose leaves at each path are related. -/
def Like {α β : Type} (R : List Key → α → β → Prop) : List Key → Dict α → Dict β → Prop
  | _, .nil, .nil => True
  | pre, .leaf k a r, .leaf k' b r' => k = k' ∧ R (pre ++ [k]) a b ∧ Like R pre r r'
  | pre, .sub k d r, .sub k' d' r' => k = k' ∧ Like R (pre ++ [k]) d d' ∧ Like R pre r r'
  | _, _, _ => False

/-- A property of every leaf. -/
def Every {α : Type} (P : List Key → α → Prop) : List Key → Dict α → Prop
  | _, .nil => True
  | pre, .leaf k a r => P (pre ++ [k]) a ∧ Every P pre r
  | pre, .sub k d r => Every P (pre ++ [k]) d ∧ Every P pre r

/-- A nested dict: distinct keys at every level, no slash and no dot in a key. -/
def Clean {α : Type} : Dict α → Prop
  | .nil => True
  | .leaf k _ r => '/' ∉ k ∧ '.' ∉ k ∧ k ∉ r.keys ∧ Clean r
  | .sub k d r => '/' ∉ k ∧ '.' ∉ k ∧ k ∉ r.keys ∧ Clean d ∧ Clean r

/-- Casts of arrays behave. -/
structure Good {A T : Type} (O : Ops A T) : Prop where
  dtype : ∀ t a, O.dtype (O.cast t a) = t
  shape : ∀ t a, O.shape (O.cast t a) = O.shape a
  same : ∀ a, O.cast (O.dtype a) a = a

/-- Cast, if a dtype is given. -/
def conv {A T : Type} (O : Ops A T) : Option T → A → A
  | some t, a => O.cast t a
  | none, a => a

/-- Leaves of two states of the same model: both `None`, or arrays of the same shape. -/
def SameKind {A T : Type} (O : Ops A T) (x y : Option A) : Prop := x.map O.shape = y.map O.shape

/-- The files below directory `D` are found below `D'` (after a rename, a copy or an upload). -/
def Moved {A : Type} (D D' : Str) (old new : TsPath.Spec → Option A) : Prop :=
  ∀ p, '/' ∉ p → new (TsPath.Spec.place D' p) = old (TsPath.Spec.place D p)

end Verif.SaveRestore.Spec
