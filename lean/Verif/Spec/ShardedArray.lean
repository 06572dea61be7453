import Verif.Model.ShardedArray
import Verif.Spec.LocalChunk
/-
The devices of a mesh in row-major order, and the block of rows of a global array a device holds.
-/
namespace Verif.ShardedArray.Spec
open Verif.LocalChunk.Spec

variable {α : Type} [DecidableEq α]

/-- The positions of a mesh in row-major order (the first axis slowest). -/
def positions (shape : α → Nat) : List α → List (α → Nat)
  | [] => [fun _ => 0]
  | a :: as => (List.range (shape a)).flatMap fun i => (positions shape as).map fun p => Function.update p a i

/-- `devs` are the devices of the mesh in row-major order, `pos` their positions. -/
structure RowMajor {D H : Type} (m : Mesh α H) (devs : List D) (pos : D → α → Nat) : Prop where
  nodup : devs.Nodup
  order : devs.map pos = positions m.shape m.names

/-- Block `c` of a list cut into blocks of length `len`. -/
def block {E : Type} (len : Nat) (g : List E) (c : Nat) : List E := (g.drop (c * len)).take len

/-- The global array `g` as its devices on host `h` hold it: each local device with its block of rows. -/
def held {D H E R : Type} [DecidableEq H] (m : Mesh α H) (axes : List α) (devs : List D) (pos : D → α → Nat) (g : List E) (h : H)
    (f : E → R) : List (D × List R) :=
  (devs.filter (fun d => m.owner (pos d) = h)).map fun d =>
    (d, (block (g.length / (axes.map m.shape).prod) g (blockNumber m.shape (pos d) axes)).map f)

/-- The index jax gives block `c` of a dimension of size `b` cut into `parts` blocks. -/
def idxOfBlock (parts b c : Nat) : Idx := if parts = 1 then none else some (c * (b / parts), (c + 1) * (b / parts))

/-- The indices of the blocks can be told apart by their hashes. -/
def NoCollision {η : Type} (hash : Idx → η) (parts b : Nat) : Prop :=
  ∀ c < parts, ∀ c' < parts, hash (idxOfBlock parts b c) = hash (idxOfBlock parts b c') →
    idxOfBlock parts b c = idxOfBlock parts b c'

end Verif.ShardedArray.Spec
