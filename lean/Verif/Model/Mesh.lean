import Verif.Model.NDArray
/-
Model of the mesh construction of `/repo/t5x/partitioning.py` lines 78-411:
`bounds_from_last_device`, `get_coords`, `get_mesh`, `get_cpu_mesh`,
the choice of the submesh in `default_mesh`.
Logging is dropped.  `jax.sharding.Mesh` is the two-dimensional array handed to it.
-/
namespace Verif.Mesh
open Verif.ND

/-- A `jax.Device`: `coords` is `none` on platforms without that attribute. -/
structure Dev where
  coords : Option (List Nat)
  core : Nat
  process : Nat
  id : Nat
  deriving DecidableEq, Repr

/-- `jax.process_count()` and `jax.local_device_count()`. -/
structure Platform where
  processes : Nat
  localCount : Nat

inductive Err where
  /-- `sorted([])[-1]` (IndexError). -/
  | noDevices
  /-- AssertionError `mesh_err`, lines 163-169 (a zero in the submesh raises ZeroDivisionError
  there; the model does not tell the two apart). -/
  | badSubmesh
  /-- AssertionError on lines 170-171. -/
  | badLocal
  /-- IndexError of `devices[device_coords] = device`, line 175. -/
  | indexError
  /-- ValueError of `mx, my, mz, mc = model_parallel_submesh`, line 184. -/
  | unpack
  /-- AssertionError `assert mc == gc`, lines 189, 198. -/
  | cores
  /-- AssertionError `tile_err`, lines 224, 227. -/
  | tile
  /-- ValueError of `reshape` / `transpose`. -/
  | shape
  /-- ValueError 'No default mesh for this configuration', lines 402-410. -/
  | noDefault
  deriving DecidableEq, Repr

/-- `get_coords`, lines 92-96. -/
def getCoords (p : Platform) (d : Dev) : List Nat :=
  match d.coords with
  | some c => c ++ [d.core]
  | none => [d.process, d.id % p.localCount]

/-- `bounds_from_last_device`, lines 78-90. -/
def bounds (p : Platform) (d : Dev) : List Nat :=
  match d.coords with
  | some [x, y, z] => [x + 1, y + 1, z + 1, d.core + 1]
  | _ => [p.processes, p.localCount]

/-- Lexicographic `<=` of tuples. -/
def lexLe : List Nat → List Nat → Bool
  | [], _ => true
  | _ :: _, [] => false
  | a :: as, b :: bs => a < b || (a == b && lexLe as bs)

/-- `sorted(devices, key=get_coords)[-1]`, lines 153-154: the sort is stable, so of several
devices with maximal coordinates it is the last one. -/
def lastDevice (p : Platform) : List Dev → Option Dev
  | [] => none
  | d :: ds => some (ds.foldl (fun best x => if lexLe (getCoords p best) (getCoords p x) then x else best) d)

/-- `np.empty(global_hardware_mesh, dtype=object)` and the assignments of lines 172-175; a
position without a device holds `None`. -/
def place (p : Platform) (g : List Nat) (devs : List Dev) : NDArray (Option Dev) :=
  ⟨g, fun i => devs.foldl (fun acc d => if getCoords p d = i then some d else acc) none⟩

/-- The bounds, submesh, device array and tiling flag after lines 176-201. -/
structure Oriented where
  g : List Nat
  m : List Nat
  devices : NDArray (Option Dev)
  tile : Bool

/-- Lines 176-201: making Z the major axis.  The two conditions are both evaluated on the original
sizes `gx … mc`. -/
def orient (g m : List Nat) (a : NDArray (Option Dev)) (tile : Bool) : Except Err Oriented :=
  match g with
  | [gx, gy, gz, gc] =>
    match m with
    | [mx, my, mz, mc] =>
      let cond1 := (mx = gx ∧ gx > 1 ∧ my = mz ∧ mz = 1) ∨ (mx = 1 ∧ my = gy ∧ gy > 1 ∧ mz = gz ∧ gz > 1)
      let cond2 := (my = gy ∧ gy > 1 ∧ mx = mz ∧ mz = 1) ∨ (my = 1 ∧ mx = gx ∧ gx > 1 ∧ mz = gz ∧ gz > 1)
      let swap1 (o : Oriented) : Except Err Oriented :=
        if mc ≠ gc then .error .cores
        else match transpose o.devices [0, 2, 1, 3] with
          | some b => .ok ⟨[gx, gz, gy, gc], [mx, mz, my, mc], b, false⟩
          | none => .error .shape
      let swap2 (o : Oriented) : Except Err Oriented :=
        if mc ≠ gc then .error .cores
        else match transpose o.devices [2, 1, 0, 3] with
          | some b => .ok ⟨[gz, gy, gx, gc], [mz, my, mx, mc], b, false⟩
          | none => .error .shape
      match (if cond1 then swap1 ⟨g, m, a, tile⟩ else .ok ⟨g, m, a, tile⟩) with
      | .error e => .error e
      | .ok o => if cond2 then swap2 o else .ok o
    | _ => .error .unpack
  | _ => .ok ⟨g, m, a, tile⟩

/-- `dh_dd_mh_md`, lines 211-229: the components of one axis, `none` for `tile_err`. -/
def dhddmhmd (g m l : Nat) : Option (List Nat) :=
  let d := g / m
  if m ≥ l then
    if m % l ≠ 0 then none else some [d, 1, m / l, l]
  else
    if l % m ≠ 0 then none else some [d / (l / m), l / m, 1, m]

/-- `map(dh_dd_mh_md, global, submesh, local)`, truncated at the shortest argument. -/
def tileTuples : List Nat → List Nat → List Nat → Option (List (List Nat))
  | g :: gs, m :: ms, l :: ls =>
    match dhddmhmd g m l with
    | none => none
    | some t => match tileTuples gs ms ls with
      | none => none
      | some ts => some (t :: ts)
  | _, _, _ => some []

/-- Reshape to the groups, transpose to block order, reshape to (data, model): lines 231-254, with
`w` the number of components of an axis. -/
def blocks (w n : Nat) (groups : List (List Nat)) (m : List Nat) (a : NDArray (Option Dev)) :
    Except Err (NDArray (Option Dev)) :=
  match reshape a groups.flatten with
  | none => .error .shape
  | some b =>
    match transpose b (blockAxes w n) with
    | none => .error .shape
    | some c =>
      match reshapeRows c m.prod with
      | none => .error .shape
      | some e => .ok e

/-- `get_mesh`, lines 105-259, given the devices, the local devices of process 0 and the flag. -/
def getMesh (p : Platform) (m : List Nat) (devs locals : List Dev) (tileIfNeeded : Bool) :
    Except Err (NDArray (Option Dev)) :=
  match lastDevice p devs, lastDevice p locals with
  | some dl, some ll =>
    let g := bounds p dl
    let l := bounds p ll
    if (List.zipWith (fun x y => x % y) g m).any (· ≠ 0) then .error .badSubmesh
    else if (List.zipWith (fun x y => x % y) g l).any (· ≠ 0) then .error .badLocal
    else if devs.any (fun d => ¬ ((getCoords p d).length = g.length ∧
        (List.zipWith (fun x y => decide (x < y)) (getCoords p d) g).all id)) then .error .indexError
    else
      match orient g m (place p g devs) tileIfNeeded with
      | .error e => .error e
      | .ok o =>
        if o.tile then
          match tileTuples o.g o.m l with
          | none => .error .tile
          | some ts => blocks 4 g.length ts o.m o.devices
        else
          blocks 2 g.length (List.zipWith (fun x y => [x / y, y]) o.g o.m) o.m o.devices
  | _, _ => .error .noDevices

/-- Device kinds with a default mesh, lines 351-400. -/
inductive Kind where
  | v23   -- 'TPU v2', 'TPU v3'
  | v4    -- 'TPU v4', 'TPU v4 lite'
  | other
  deriving DecidableEq, Repr

/-- The table for 'TPU v2' and 'TPU v3', lines 351-361. -/
def v23Submesh (n : Nat) : Except Err (List Nat) :=
  match n with
  | 1 => .ok [1, 1, 1, 1]
  | 2 => .ok [1, 1, 1, 2]
  | 4 => .ok [2, 1, 1, 2]
  | 8 => .ok [2, 2, 1, 2]
  | 16 => .ok [4, 2, 1, 2]
  | _ => .error .noDefault

/-- The table for 'TPU v4' with bounds `b0`, `b2` along x and z, lines 362-400. -/
def v4Submesh (b0 b2 n : Nat) : Except Err (List Nat) :=
  match n with
  | 1 => .ok [1, 1, 1, 1]
  | 2 => .ok [1, 2, 1, 1]
  | 4 => if b0 ≥ 4 then .ok [4, 1, 1, 1] else .ok [2, 2, 1, 1]
  | 8 => if b2 ≥ 8 then .ok [1, 1, 8, 1] else .ok [4, 2, 1, 1]
  | 16 =>
    if b2 ≥ 16 then .ok [1, 1, 16, 1]
    else if b0 ≥ 8 then .ok [8, 2, 1, 1]
    else if b0 ≥ 4 then .ok [4, 4, 1, 1]
    else .ok [2, 2, 4, 1]
  | _ => .error .noDefault

/-- The submesh chosen by `default_mesh` on TPU, lines 350-410. -/
def defaultSubmesh (k : Kind) (b : List Nat) (n : Nat) : Except Err (List Nat) :=
  if k = .v23 then v23Submesh n
  else if k = .v4 ∧ b.getD 3 0 = 1 then v4Submesh (b.getD 0 0) (b.getD 2 0) n
  else .error .noDefault

end Verif.Mesh
