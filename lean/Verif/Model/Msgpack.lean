import Verif.Common
import Verif.Model.PyDict
/-
Model of t5x/checkpoint_utils.py:101-137 `_read_msgpack_keys` and `_contains_ts_spec`.

A msgpack file is the list of its headers and atoms.  `msgpack.Unpacker` is modelled on that level:
`read_map_header` on something else raises and consumes nothing (as the C implementation does), `skip` consumes
one complete object.  Python's dictionaries are objects in a heap, since the traversal keeps references to them.
-/
namespace Verif.Msgpack

/-- Headers and atoms. -/
inductive Tok
  | mapHdr (n : ℕ)
  | arrHdr (n : ℕ)
  | str (s : List Char)
  | bin (s : List Char)
  | other (x : ℕ)
deriving DecidableEq, Repr

/-- How many objects follow a header. -/
def arity : Tok → ℕ
  | .mapHdr n => 2 * n
  | .arrHdr n => n
  | _ => 0

/-- `Unpacker.skip`, for k objects. -/
def skip : ℕ → List Tok → Option (List Tok)
  | 0, ts => some ts
  | _ + 1, [] => none
  | k + 1, t :: ts => skip (k + arity t) ts
termination_by _ ts => ts.length

inductive Err | outOfData | badKey | badHeader | fuel
deriving DecidableEq, Repr

/-- A dictionary object: key to None or to a reference. -/
abbrev Obj := List (List Char × Option ℕ)

/-- checkpoint_utils.py:112-114: the next key. -/
def readKey : List Tok → Except Err (List Char × List Tok)
  | .str s :: ts => .ok (s, ts)
  | .bin _ :: .bin s :: ts => .ok (s, ts)
  | [] => .error .outOfData
  | _ => .error .badKey

/-- `parent_dict[key] = v`. -/
def assign (h : List Obj) (r : ℕ) (k : List Char) (v : Option ℕ) : List Obj := h.modify r (fun d => PyDict.set d k v)

/-- checkpoint_utils.py:110-124: the loop; the head of `stack` is the end of visit_stack. -/
def loop : ℕ → List ℕ → List Tok → List Obj → Except Err (List Obj)
  | _, [], _, h => .ok h
  | 0, _ :: _, _, _ => .error .fuel
  | f + 1, r :: stack, ts, h =>
    match readKey ts with
    | .error e => .error e
    | .ok (k, ts) =>
      match ts with
      | [] => .error .outOfData
      | .mapHdr n :: ts => loop f (List.replicate n h.length ++ stack) ts (assign h r k (some h.length) ++ [[]])
      | ts =>
        match skip 1 ts with
        | none => .error .outOfData
        | some ts => loop f stack ts (assign h r k none)

/-- checkpoint_utils.py:101-126.  Every iteration consumes a key, so the length of the file is enough fuel. -/
def readKeys (ts : List Tok) : Except Err (List Obj) :=
  match ts with
  | .mapHdr n :: ts => loop (ts.length + 1) (List.replicate n 0) ts [[]]
  | _ => .error .badHeader

/-! The key tree as a value, for `_contains_ts_spec`. -/

mutual
inductive KTree
  | none
  | dict (items : KItems)
inductive KItems
  | nil
  | cons (k : List Char) (v : KTree) (rest : KItems)
end

def KItems.keys : KItems → List (List Char)
  | .nil => []
  | .cons k _ r => k :: r.keys

/-- The values that are dictionaries. -/
def KItems.dicts : KItems → List KItems
  | .nil => []
  | .cons _ .none r => r.dicts
  | .cons _ (.dict d) r => d :: r.dicts

mutual
/-- Number of dictionaries in a tree. -/
def KTree.size : KTree → ℕ
  | .none => 0
  | .dict d => d.size + 1
def KItems.size : KItems → ℕ
  | .nil => 0
  | .cons _ v r => v.size + r.size
end

def specKeys : List (List Char) := ["driver".toList, "kvstore".toList, "metadata".toList]

/-- checkpoint_utils.py:129-137; the head of the list is the end of `to_visit`. -/
def containsLoop : ℕ → List KItems → Bool
  | _, [] => false
  | 0, _ => false
  | f + 1, cur :: rest =>
    if specKeys.all (fun k => k ∈ cur.keys) then true else containsLoop f (cur.dicts.reverse ++ rest)

def containsTsSpec (t : KItems) : Bool := containsLoop (t.size + 1) [t]

end Verif.Msgpack
