import Verif.Model.StateDict
/-
Specification vocabulary for nested state dictionaries.
-/
namespace Verif.StateDict.Spec
open Verif Verif.StateDict

variable {α : Type}

/-- The leaf found by walking along a path of keys, if there is one.  A
dictionary accepted by `isLeaf` (a tensorstore spec) counts as a leaf, and one
does not walk into it. -/
def leafAt (isLeaf : Dict α → Bool) : Dict α → List Key → Option (Val α)
  | _, [] => none
  | d, [k] =>
    match d.get k with
    | some (.arr a) => some (.arr a)
    | some (.dict s) => if isLeaf s then some (.dict s) else none
    | none => none
  | d, k :: k2 :: ks =>
    match d.get k with
    | some (.dict s) => if isLeaf s then none else leafAt isLeaf s (k2 :: ks)
    | _ => none

/-- A proper Python dictionary (no duplicate key), none of whose keys contains
the separator. Tensorstore specs are opaque. -/
def Proper (isLeaf : Dict α → Bool) : Dict α → Prop
  | .nil => True
  | .leaf k _ r => '/' ∉ k ∧ k ∉ r.keys ∧ Proper isLeaf r
  | .sub k d r => '/' ∉ k ∧ k ∉ r.keys ∧ (isLeaf d = true ∨ Proper isLeaf d) ∧ Proper isLeaf r

/-- A path that can be written as an 'a/b/c' name: not empty, and no component
contains the separator. -/
def Named (p : List Key) : Prop := p ≠ [] ∧ ∀ k ∈ p, '/' ∉ k

instance (p : List Key) : Decidable (Named p) := by unfold Named; infer_instance

/-- A proper Python dictionary: no duplicate key at any level. -/
def Distinct (isLeaf : Dict α → Bool) : Dict α → Prop
  | .nil => True
  | .leaf k _ r => k ∉ r.keys ∧ Distinct isLeaf r
  | .sub k d r => k ∉ r.keys ∧ (isLeaf d = true ∨ Distinct isLeaf d) ∧ Distinct isLeaf r

/-- No empty dictionary inside. -/
def NoEmpty (isLeaf : Dict α → Bool) : Dict α → Prop
  | .nil => True
  | .leaf _ _ r => NoEmpty isLeaf r
  | .sub _ d r => (isLeaf d = true ∨ (d ≠ .nil ∧ NoEmpty isLeaf d)) ∧ NoEmpty isLeaf r

/-- No path component is called "driver", so no ordinary dictionary can be
mistaken for a tensorstore spec. -/
def Plain : Dict α → Prop
  | .nil => True
  | .leaf k _ r => k ≠ "driver".toList ∧ Plain r
  | .sub k d r => k ≠ "driver".toList ∧ (tensorstoreLeaf d = true ∨ Plain d) ∧ Plain r

/-- The leaf of a state dictionary at a path. -/
def stateLeaf (d : Dict α) (p : List Key) : Option (Val α) := leafAt tensorstoreLeaf d p

/-- No leaf of one dictionary sits above a leaf of the other one. -/
def NoConflict (s t : Dict α) : Prop :=
  ∀ p q v w, stateLeaf s p = some v → stateLeaf t q = some w → (p <+: q ∨ q <+: p) → p = q

/-- The first rule that matches a key. -/
def firstMatch (rules : List Rule) (k : Key) : Option Rule := rules.find? (fun r => r.fullmatch k)

/-- Key `k` of the current model is explicitly skipped. -/
def Skipped (opt : List Key) (rules : List Rule) (k : Key) : Prop :=
  k ∈ opt ∧ ∃ r, firstMatch rules k = some r ∧ r.expand = none

/-- The current model's key `k` is assigned from the checkpoint's key `old`. -/
def AssignedFrom (opt : List Key) (rules : List Rule) (k old : Key) : Prop :=
  k ∈ opt ∧ ∃ r f, firstMatch rules k = some r ∧ r.expand = some f ∧ f k = old

end Verif.StateDict.Spec
