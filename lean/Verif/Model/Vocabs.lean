import Verif.Model.PyDict
/-
The check that a task and a model use the same vocabularies: `get_vocabulary` and `verify_matching_vocabs`
(`/repo/t5x/utils.py`, lines 1843-1947).

Simplifications: the provider is given by its output features (a dict from names to vocabularies); comparing vocabularies (`!=`) is
comparing values.  AirIO providers go the same way with the features made from their vocabulary map, which must not be empty
(lines 1871-1877).  The import of `cfg.module` is not modelled.
-/
namespace Verif.Vocabs

variable {V : Type} [DecidableEq V]

abbrev Name := List Char

/-- The vocabulary of an output feature, and whether it is a `seqio.PassThroughVocabulary`. -/
structure Feature (V : Type) where
  vocab : V
  passThrough : Bool

inductive Err where
  | noVocab     -- ValueError '... no vocabularies were set for any features.'
  | different   -- ValueError '... vocabularies are different.'
  | noMatch     -- ValueError 'Model and Task vocabularies do not match'
deriving DecidableEq

/-- The loop of lines 1909-1914. -/
def allSame (first : V) : List V → Except Err (V × V)
  | [] => .ok (first, first)
  | v :: rest => if v ≠ first then .error .different else allSame first rest

/-- Lines 1900-1914, from the list of vocabularies on. -/
def fromList : List V → Except Err (V × V)
  | [] => .error .noVocab
  | v :: rest => allSame v rest

/-- `get_vocabulary`, lines 1843-1914. -/
def getVocabulary (features : List (Name × Feature V)) : Except Err (V × V) :=
  match PyDict.get features "inputs".toList, PyDict.get features "targets".toList with
  | some i, some t => .ok (i.vocab, t.vocab)
  | _, _ =>
    let vocabularies := (features.filter fun f => !f.2.passThrough).map fun f => f.2.vocab
    let vocabularies := if vocabularies = [] then features.map fun f => f.2.vocab else vocabularies
    fromList vocabularies

/-- `verify_matching_vocabs`, lines 1917-1947; `inV` and `outV` are the vocabularies of the model. -/
def verifyMatching (features : List (Name × Feature V)) (inV outV : V) : Except Err Unit :=
  match getVocabulary features with
  | .error e => .error e
  | .ok (a, b) => if a ≠ inV ∨ b ≠ outV then .error .noMatch else .ok ()

end Verif.Vocabs
