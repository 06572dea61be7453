import Verif.Model.LocalChunk
/-
Meshes of devices owned by hosts, and which part of an array a grid position holds.
-/
namespace Verif.LocalChunk.Spec
open Verif.LocalChunk

/-- A global mesh: named axes with their sizes, and the host (process) owning the device at each position. -/
structure Mesh (α H : Type) where
  names : List α
  shape : α → Nat
  owner : (α → Nat) → H

variable {α H : Type}

/-- Positions of the mesh. -/
def InMesh (m : Mesh α H) (p : α → Nat) : Prop := ∀ a ∈ m.names, p a < m.shape a

/-- The devices of every host are a box, all of the same size `l`; `first h` is the position of the first device of `h`. -/
structure Boxes (m : Mesh α H) (l : α → Nat) (first : H → α → Nat) : Prop where
  nodup : m.names.Nodup
  pos : ∀ a ∈ m.names, 0 < l a
  inside : ∀ h, ∀ a ∈ m.names, first h a + l a ≤ m.shape a
  owns : ∀ h p, InMesh m p → (m.owner p = h ↔ ∀ a ∈ m.names, first h a ≤ p a ∧ p a < first h a + l a)

/-- The index `i` of an array of shape `n` lies in the block at grid position `p`, when every dimension annotated with
an axis `a` is cut into `parts a` equal pieces.  This is how a `PartitionSpec` shards an array over devices. -/
def BlockAt (parts p : α → Nat) : List (Entry α) → List Nat → List Nat → Prop
  | .name a :: es, n :: ns, i :: is => (i < n ∧ i / (n / parts a) = p a) ∧ BlockAt parts p es ns is
  | _ :: es, n :: ns, i :: is => i < n ∧ BlockAt parts p es ns is
  | [], n :: ns, i :: is => i < n ∧ BlockAt parts p [] ns is
  | _, [], [] => True
  | _, _, _ => False

/-- The index `i` lies in the given slices of an array of shape `n`. -/
def InSlices : List (Option (Nat × Nat)) → List Nat → List Nat → Prop
  | some (x, y) :: ss, n :: ns, i :: is => (i < n ∧ x ≤ i ∧ i < y) ∧ InSlices ss ns is
  | none :: ss, n :: ns, i :: is => i < n ∧ InSlices ss ns is
  | [], [], [] => True
  | _, _, _ => False

/-- The index `i` lies in an array of shape `n`. -/
def InShape (n i : List Nat) : Prop := List.Forall₂ (· < ·) i n

/-- The annotations can shard an array of this shape in `parts a` pieces along each axis `a`: known, distinct axes, sizes
positive and divisible. -/
def Shardable (names : List α) (parts : α → Nat) : List (Entry α) → List Nat → Prop
  | .name a :: es, n :: ns =>
    (a ∈ names ∧ 0 < n ∧ parts a ∣ n ∧ Entry.name a ∉ es) ∧ Shardable names parts es ns
  | .tuple l :: es, n :: ns => (l = [] ∧ 0 < n) ∧ Shardable names parts es ns
  | .none :: es, n :: ns => 0 < n ∧ Shardable names parts es ns
  | [], n :: ns => 0 < n ∧ Shardable names parts [] ns
  | [], [] => True
  | _ :: _, [] => False

/-- Row-major number of a grid position along the given axes, first axis slowest: the block of the leading dimension that
`PartitionSpec((a₁, …, aₖ))` gives to the device at `p`. -/
def blockNumber (parts p : α → Nat) : List α → Nat
  | [] => 0
  | a :: as => p a * (as.map parts).prod + blockNumber parts p as

/-- Row `r` of a batch of `b` rows sharded over `axes` is on some device of host `h`. -/
def HasRow (m : Mesh α H) (axes : List α) (b : Nat) (h : H) (r : Nat) : Prop :=
  ∃ p, InMesh m p ∧ m.owner p = h ∧ r < b ∧ r / (b / (axes.map m.shape).prod) = blockNumber m.shape p axes

/-- The chunker host `h` builds. -/
def hostChunker (m : Mesh α H) (l : α → Nat) (first : H → α → Nat) (h : H) : Chunker α :=
  Chunker.init m.names m.shape l (first h)

end Verif.LocalChunk.Spec
