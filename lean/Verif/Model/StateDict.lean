import Mathlib.Data.List.SplitOn
import Verif.Model.PyDict
/-
Nested state dictionaries and `/repo/t5x/state_utils.py`.

The two external functions `flatten_dict` and `unflatten_dict` of
`flax.traverse_util` are modelled from their definition (flax is a dependency,
not part of the repository).
-/
namespace Verif.StateDict
open Verif

/-- Dictionary keys (`str`). -/
abbrev Key := List Char

/-- A nested dictionary in insertion order.  Every entry holds either a leaf
(array, scalar, …) or another dictionary. -/
inductive Dict (α : Type) where
  | nil
  | leaf (k : Key) (a : α) (rest : Dict α)
  | sub (k : Key) (d : Dict α) (rest : Dict α)
  deriving DecidableEq, Repr

/-- What a dictionary entry can hold. -/
inductive Val (α : Type) where
  | arr (a : α)
  | dict (d : Dict α)
  deriving DecidableEq, Repr

variable {α : Type}

namespace Dict

/-- `d.keys()`. -/
def keys : Dict α → List Key
  | nil => []
  | leaf k _ r => k :: keys r
  | sub k _ r => k :: keys r

/-- `d.get(k)`. -/
def get : Dict α → Key → Option (Val α)
  | nil, _ => none
  | leaf k a r, k' => if k = k' then some (.arr a) else get r k'
  | sub k d r, k' => if k = k' then some (.dict d) else get r k'

def cons (k : Key) : Val α → Dict α → Dict α
  | .arr a, r => leaf k a r
  | .dict d, r => sub k d r

/-- `d[k] = v`. -/
def set : Dict α → Key → Val α → Dict α
  | nil, k, v => cons k v nil
  | leaf k' a r, k, v => if k' = k then cons k v r else leaf k' a (set r k v)
  | sub k' d r, k, v => if k' = k then cons k v r else sub k' d (set r k v)

end Dict

/-- `"/".join(path)`. -/
def join (p : List Key) : Key := ['/'].intercalate p

/-- `name.split("/")`. -/
def split (n : Key) : List Key := n.splitOn '/'

/-- state_utils.py:24-37 `tensorstore_leaf`. -/
def tensorstoreLeaf (d : Dict α) : Bool :=
  d.keys.contains "driver".toList && d.keys.contains "kvstore".toList &&
    d.keys.contains "metadata".toList

/-- `_flatten` inside `flax.traverse_util.flatten_dict`, with tuple keys joined
by `name`: a left-to-right loop of `result.update(...)`.  `isLeaf` is the
`is_leaf` callback; an empty node kept by `keep_empty_nodes` is represented by
the empty dictionary it stands for. -/
def flattenGo {κ : Type} [DecidableEq κ] (isLeaf : Dict α → Bool) (keepEmpty : Bool) (name : List Key → κ) :
    List Key → List (κ × Val α) → Dict α → List (κ × Val α)
  | _, acc, .nil => acc
  | pre, acc, .leaf k a r =>
    flattenGo isLeaf keepEmpty name pre (PyDict.update acc [(name (pre ++ [k]), .arr a)]) r
  | pre, acc, .sub k d r =>
    let inner := if isLeaf d then [(name (pre ++ [k]), .dict d)]
      else if keepEmpty && d.keys.isEmpty then [(name (pre ++ [k]), .dict d)]
      else flattenGo isLeaf keepEmpty name (pre ++ [k]) [] d
    flattenGo isLeaf keepEmpty name pre (PyDict.update acc inner) r

/-- state_utils.py:40-57 `flatten_state_dict`.  (The root itself is never a
tensorstore spec in any use of this function.) -/
def flattenStateDict (d : Dict α) (keepEmpty : Bool := false) : List (Key × Val α) :=
  flattenGo tensorstoreLeaf keepEmpty join [] [] d

/-- One iteration of `flax.traverse_util.unflatten_dict`: walk along `path[:-1]`
creating missing dictionaries, then assign. Walking through something that is
not a dictionary raises (`none`). -/
def ins : Dict α → List Key → Val α → Option (Dict α)
  | _, [], _ => none
  | d, [k], v => some (d.set k v)
  | d, k :: k2 :: ks, v =>
    match d.get k with
    | none => (ins .nil (k2 :: ks) v).map fun s => d.set k (.dict s)
    | some (.dict s) => (ins s (k2 :: ks) v).map fun s' => d.set k (.dict s')
    | some (.arr _) => none

/-- `flax.traverse_util.unflatten_dict` on tuple keys. -/
def unflattenPaths (d : Dict α) : List (List Key × Val α) → Option (Dict α)
  | [] => some d
  | (p, v) :: l => (ins d p v).bind fun d' => unflattenPaths d' l

/-- `flax.traverse_util.unflatten_dict(xs, sep="/")`. -/
def unflatten (l : List (Key × Val α)) : Option (Dict α) :=
  unflattenPaths .nil (l.map fun e => (split e.1, e.2))

/-- state_utils.py:60-67 `get_name_tree`. Tuple keys and no leaf callback. -/
def getNameTree (d : Dict α) (keepEmpty : Bool := false) : Option (Dict Key) :=
  unflattenPaths .nil
    ((flattenGo (fun _ => false) keepEmpty id [] [] d).map fun e => (e.1, .arr (join e.1)))

/-- state_utils.py:70-94 `intersect_state`. -/
def intersectState (s t : Dict α) : Option (Dict α) :=
  let flat := flattenStateDict s
  let other := flattenStateDict t
  unflatten ((PyDict.keys flat).foldl
    (fun f k => if PyDict.has other k then f else PyDict.pop f k) flat)

/-- state_utils.py:97-125 `merge_state`. -/
def mergeState (s t : Dict α) (overwrite : Bool := false) : Option (Dict α) :=
  let flat := flattenStateDict s
  let other := flattenStateDict t
  unflatten (other.foldl
    (fun f kv => if !PyDict.has f kv.1 || overwrite then PyDict.set f kv.1 kv.2 else f) flat)

/-- One entry of the assignment map.  `re.fullmatch` and `match.expand` are
external: `fullmatch` says whether the pattern matches the whole key, and
`expand` gives the expanded replacement for a matching key (`none` when the
replacement is `None`). -/
structure Rule where
  pattern : Key
  fullmatch : Key → Bool
  expand : Option (Key → Key)

inductive MapErr where
  /-- `ValueError: Parameter ... does not exist in restore checkpoint`. -/
  | missing
  /-- `ValueError: Unused patterns`. -/
  | unusedPatterns
  deriving DecidableEq, Repr

/-- Loop variables of `apply_assignment_map`. -/
structure MapSt (β : Type) where
  unmapped : List (Key × β)
  result : List (Key × β) := []
  skipped : List Key := []
  used : List Key := []

def addUsed (u : List Key) (p : Key) : List Key := if p ∈ u then u else u ++ [p]

/-- The inner loop over the rules for one key, state_utils.py:176-211. -/
def mapKey {β : Type} (ckpt : List (Key × β)) (rules : List Rule) (k : Key) (st : MapSt β) :
    Except MapErr (MapSt β) :=
  match rules with
  | [] => .ok st
  | r :: rs =>
    if r.fullmatch k then
      match r.expand with
      | none => .ok { st with skipped := k :: st.skipped, used := addUsed st.used r.pattern }
      | some f =>
        match PyDict.get ckpt (f k) with
        | none => .error .missing
        | some v => .ok { st with
            used := addUsed st.used r.pattern
            unmapped := PyDict.pop st.unmapped (f k)
            result := PyDict.set st.result k v }
    else mapKey ckpt rs k st

/-- state_utils.py:175-211: the loop over the keys of the current optimizer
state. -/
def mapKeys {β : Type} (ckpt : List (Key × β)) (rules : List Rule) :
    List Key → MapSt β → Except MapErr (MapSt β)
  | [], st => .ok st
  | k :: ks, st =>
    match mapKey ckpt rules k st with
    | .error e => .error e
    | .ok st' => mapKeys ckpt rules ks st'

/-- state_utils.py:163-238 on the flattened dictionaries, up to the final
unflattening.  The loop over `set(flat_opt) - set(result)` is run in the order
of `flat_opt`; its iterations are independent. -/
def assignFlat {β : Type} (ckpt opt : List (Key × β)) (rules : List Rule) (requireAll : Bool) :
    Except MapErr (List (Key × β)) :=
  match mapKeys ckpt rules (PyDict.keys opt) { unmapped := ckpt } with
  | .error e => .error e
  | .ok st =>
    let result := st.unmapped.foldl
      (fun r kv => if kv.1 ∈ st.skipped then r else PyDict.set r kv.1 kv.2) st.result
    let result := ((PyDict.keys opt).filter (fun k => !PyDict.has result k)).foldl
      (fun r k => if k ∈ st.skipped then r else
        match PyDict.get ckpt k with
        | some v => PyDict.set r k v
        | none => r) result
    if requireAll && rules.length != st.used.length then .error .unusedPatterns
    else .ok result

/-- state_utils.py:128-238 `apply_assignment_map`.  The outer `Option` is the
failure of the final unflattening (conflicting names). -/
def applyAssignmentMap (ckpt opt : Dict α) (rules : List Rule) (requireAll isResuming : Bool) :
    Except MapErr (Option (Dict α)) :=
  if isResuming then .ok (some ckpt)
  else
    match assignFlat (flattenStateDict ckpt) (flattenStateDict opt) rules requireAll with
    | .error e => .error e
    | .ok r => .ok (unflatten r)

end Verif.StateDict
