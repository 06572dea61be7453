import Verif.Model.PyDict
/-
What `predict_batch_with_aux` does to the `decoder_params` it is given: `/repo/t5x/models.py`, lines 717-750 (encoder-decoder) and
1204-1231 (decoder-only).

`decoder_params` is a dict that the caller may keep and pass again; it is changed in place.  The rest of the method is a function of
the batch, the parameters and the keyword arguments passed to the decoding function, so a call is modelled by those keyword arguments.
Values are opaque.
-/
namespace Verif.DecParams
open Verif

variable {V : Type}

abbrev Key := List Char

def kRng : Key := "decode_rng".toList
def kIndex : Key := "initial_index".toList
def kEos : Key := "eos_id".toList

inductive Kind where
  | encDec
  | decOnly
  deriving DecidableEq

/-- A prediction call: the model, its end-of-sequence id, the initial index computed for the batch (`None` without prefilling; a
decoder-only model always has one) and the `rng` argument. -/
structure Call (V : Type) where
  kind : Kind
  eos : V
  index : Option V
  rng : Option V

inductive Err where
  | twoKeys       -- ValueError: RNG both in the argument and in decoder_params
  | twoIndices    -- TypeError: multiple values for keyword argument 'initial_index'
  deriving DecidableEq

/-- `decoder_params['initial_index'] = initial_index`, lines 719-722; encoder-decoder models only. -/
def putIndex (c : Call V) (D : List (Key × V)) : List (Key × V) :=
  match c.kind, c.index with
  | .encDec, some i => PyDict.set D kIndex i
  | _, _ => D

/-- `if 'eos_id' not in decoder_params: ...`, lines 741-742 and 1221-1222. -/
def putEos (c : Call V) (D : List (Key × V)) : List (Key × V) :=
  if (PyDict.get D kEos).isSome then D else PyDict.set D kEos c.eos

/-- The call of the decoding function, lines 743-750 and 1223-1231: the keyword arguments that come from `decoder_params` and the
initial index. -/
def decode (c : Call V) (D : List (Key × V)) : Except Err (List (Key × V)) :=
  match c.kind, c.index with
  | .decOnly, some i => if (PyDict.get D kIndex).isSome then .error .twoIndices else .ok (PyDict.set D kIndex i)
  | _, _ => .ok D

/-- Lines 717-750 and 1204-1231, for a dict `D`: the outcome and the dict as the caller then finds it.  `None` as a value in the dict
is the same as no entry for `decode_rng`; it is not a value here. -/
def call (c : Call V) (D : List (Key × V)) : Except Err (List (Key × V)) × List (Key × V) :=
  let D1 := putIndex c D
  match c.rng with
  | some r =>
    if (PyDict.get D1 kRng).isSome then (.error .twoKeys, D1)
    else
      let D2 := putEos c (PyDict.set D1 kRng r)
      (decode c D2, D2)
  | none =>
    let D2 := putEos c D1
    (decode c D2, D2)

/-- Calls one after the other with the same dict: the outcomes and the dict. -/
def calls : List (Call V) → List (Key × V) → List (Except Err (List (Key × V))) × List (Key × V)
  | [], D => ([], D)
  | c :: cs, D =>
    let r := call c D
    let rest := calls cs r.2
    (r.1 :: rest.1, rest.2)

end Verif.DecParams
