import Verif.Model.NamedTree
namespace Verif.NamedTree.Spec
open Verif.NamedTree

variable {β : Type}

mutual
  /-- The subtree at a path of keys. -/
  def look : PTree β → List Key → Option (PTree β)
    | t, [] => some t
    | .leaf _, _ :: _ => none
    | .node _ cs, k :: ks => lookF cs k ks
  def lookF : PForest β → Key → List Key → Option (PTree β)
    | .nil, _, _ => none
    | .cons k' t r, k, ks => if k' = k then look t ks else lookF r k ks
end

/-- What is at a path: a leaf with its value, or a node with its kind. -/
inductive View (β : Type) where
  | leaf (v : β)
  | node (isDataclass : Bool)
deriving DecidableEq

def view : PTree β → View β
  | .leaf v => .leaf v
  | .node dc _ => .node dc

/-- The path name: the keys joined by slashes. -/
def name : List Key → Key
  | [] => []
  | [k] => k
  | k :: k' :: ks => k ++ '/' :: name (k' :: ks)

/-- A key that can be read back from a path name: not empty, no slash at the end. -/
def GoodKey (k : Key) : Prop := k ≠ [] ∧ k.getLast? ≠ some '/'

mutual
  /-- A tree of dicts and dataclasses: distinct good keys at every node. -/
  def Good : PTree β → Prop
    | .leaf _ => True
    | .node _ cs => GoodF cs
  def GoodF : PForest β → Prop
    | .nil => True
    | .cons k t r => GoodKey k ∧ k ∉ keysF r ∧ Good t ∧ GoodF r
  def keysF : PForest β → List Key
    | .nil => []
    | .cons k _ r => k :: keysF r
end

/-- Apply `f` to a leaf if its path name matches, keep everything else. -/
def mapView (f : β → β) (matchName : Key → Bool) (path : List Key) : View β → View β
  | .leaf v => .leaf (if matchName (name path) then f v else v)
  | .node dc => .node dc

end Verif.NamedTree.Spec
