import Verif.Model.Msgpack
/- Nested msgpack values, their encoding, and their key tree. -/
namespace Verif.Msgpack.Spec
open Verif.Msgpack

mutual
inductive Val
  | str (s : List Char)
  | bin (s : List Char)
  | other (x : ℕ)
  | arr (vs : Vals)
  | map (kvs : KVs)
inductive Vals
  | nil
  | cons (v : Val) (rest : Vals)
inductive KVs
  | nil
  | cons (k : List Char) (v : Val) (rest : KVs)
end

def Vals.len : Vals → ℕ
  | .nil => 0
  | .cons _ r => r.len + 1

def KVs.len : KVs → ℕ
  | .nil => 0
  | .cons _ _ r => r.len + 1

mutual
/-- The msgpack encoding, on the level of headers and atoms. -/
def Val.enc : Val → List Tok
  | .str s => [.str s]
  | .bin s => [.bin s]
  | .other x => [.other x]
  | .arr vs => .arrHdr vs.len :: vs.enc
  | .map kvs => .mapHdr kvs.len :: kvs.enc
def Vals.enc : Vals → List Tok
  | .nil => []
  | .cons v r => v.enc ++ r.enc
def KVs.enc : KVs → List Tok
  | .nil => []
  | .cons k v r => .str k :: (v.enc ++ r.enc)
end

mutual
/-- The key tree: maps stay, everything else becomes None. -/
def Val.keyTree : Val → KTree
  | .map kvs => .dict kvs.keyItems
  | _ => .none
def KVs.keyItems : KVs → KItems
  | .nil => .nil
  | .cons k v r => .cons k v.keyTree r.keyItems
end

def KVs.keys : KVs → List (List Char)
  | .nil => []
  | .cons k _ r => k :: r.keys

mutual
/-- No key occurs twice in a map, as in every dictionary. -/
def Val.WF : Val → Prop
  | .map kvs => kvs.WF
  | _ => True
def KVs.WF : KVs → Prop
  | .nil => True
  | .cons k v r => k ∉ r.keys ∧ v.WF ∧ r.WF
end

/-- The dictionary object `d` of heap h is the key tree ks; only objects from lo on are used for the values. -/
inductive Rep (h : List Obj) (lo : ℕ) : Obj → KItems → Prop
  | nil : Rep h lo [] .nil
  | leaf (k : List Char) (d : Obj) (ks : KItems) : Rep h lo d ks → Rep h lo ((k, none) :: d) (.cons k .none ks)
  | dict (k : List Char) (i : ℕ) (d d' : Obj) (ks ks' : KItems) : lo ≤ i → h[i]? = some d' → Rep h lo d' ks' →
      Rep h lo d ks → Rep h lo ((k, some i) :: d) (.cons k (.dict ks') ks)

/-- A tree contains a serialized ts.Spec. -/
inductive HasSpec : KItems → Prop
  | here (d : KItems) : (∀ k ∈ specKeys, k ∈ d.keys) → HasSpec d
  | inside (d e : KItems) : e ∈ d.dicts → HasSpec e → HasSpec d

end Verif.Msgpack.Spec
