import Verif.Model.Mesh
/-
What a physical topology is, and what a good mesh is.
-/
namespace Verif.Mesh.Spec
open Verif.ND Verif.Mesh

/-- The coordinates of the devices are exactly the points of the box `g`, each once. -/
structure Fills (p : Platform) (devs : List Dev) (g : List Nat) : Prop where
  inj : ∀ d ∈ devs, ∀ d' ∈ devs, getCoords p d = getCoords p d' → d = d'
  nodup : devs.Nodup
  mem : ∀ i, (∃ d ∈ devs, getCoords p d = i) ↔ InBox g i

/-- A TPU slice with bounds `g` whose process 0 owns the box `l`: three chip coordinates and a core. -/
structure Tpu (p : Platform) (devs locals : List Dev) (g l : List Nat) : Prop where
  coords : ∀ d ∈ devs ++ locals, ∃ x y z, d.coords = some [x, y, z]
  rank : g.length = 4
  lrank : l.length = 4
  pos : 0 < g.prod
  lpos : 0 < l.prod
  fills : Fills p devs g
  lfills : Fills p locals l

/-- The devices of every process are an aligned box of size `l`. -/
def HostBoxes (p : Platform) (devs : List Dev) (l : List Nat) : Prop :=
  ∀ d ∈ devs, ∀ d' ∈ devs, d.process = d'.process ↔
    List.zipWith (· / ·) (getCoords p d) l = List.zipWith (· / ·) (getCoords p d') l

end Verif.Mesh.Spec

namespace Verif.Mesh.Spec
open Verif.ND Verif.Mesh

/-- A platform without device coordinates (CPU, GPU): the devices are (process, local index) pairs,
`l` plays no role and both bounds are `g`. -/
structure Flat (p : Platform) (devs locals : List Dev) (g l : List Nat) : Prop where
  coords : ∀ d ∈ devs ++ locals, d.coords = none
  bound : g = [p.processes, p.localCount]
  lbound : l = g
  pos : 0 < g.prod
  nonempty : locals ≠ []
  fills : Fills p devs g

def Topology (p : Platform) (devs locals : List Dev) (g l : List Nat) : Prop :=
  Tpu p devs locals g l ∨ Flat p devs locals g l

end Verif.Mesh.Spec

namespace Verif.Mesh.Spec
open Verif.ND Verif.Mesh

/-- The submeshes for which `get_mesh` reorders the axes instead of tiling by hosts: full extent along one horizontal
axis only, or full extent along the other horizontal axis and the vertical one. -/
def ZMajor (g m : List Nat) : Prop :=
  ∃ gx gy gz gc mx my mz mc, g = [gx, gy, gz, gc] ∧ m = [mx, my, mz, mc] ∧
    ((mx = gx ∧ gx > 1 ∧ my = 1 ∧ mz = 1) ∨ (mx = 1 ∧ my = gy ∧ gy > 1 ∧ mz = gz ∧ gz > 1) ∨
     (my = gy ∧ gy > 1 ∧ mx = 1 ∧ mz = 1) ∨ (my = 1 ∧ mx = gx ∧ gx > 1 ∧ mz = gz ∧ gz > 1))

end Verif.Mesh.Spec
