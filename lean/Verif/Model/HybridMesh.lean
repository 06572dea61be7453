import Verif.Model.Mesh
import Mathlib.Data.List.Sort
/-
Meshes over several groups of devices with a slow network between them: `get_cpu_mesh`, `get_gpu_mesh`, and `default_mesh` as a whole
(`/repo/t5x/partitioning.py`, lines 262-411).

`jax.experimental.mesh_utils` is not part of the repository.  Its `create_hybrid_device_mesh` is described here as documented and implemented: devices
are grouped by process or slice, the groups in the order of their numbers are arranged in a grid of shape `dcn_mesh_shape`, and each group is replaced by
its devices, arranged by `create_device_mesh` in a block of shape `mesh_shape`.  The arrangement inside a group is a parameter.
-/
namespace Verif.HybridMesh
open Verif.ND Verif.Mesh

inductive Err where
  | zeroDivision   -- ZeroDivisionError of `divmod`
  | factor         -- AssertionError: number of partitions must be a factor or multiple of the number of local devices
  | groups         -- ValueError: Number of slices/processes must equal the product of dcn_mesh_shape
  | devices        -- ValueError: Number of devices must equal the product of mesh_shape
  | rank           -- mesh_shape and dcn_mesh_shape of different lengths
  | noDevices      -- IndexError: `devices[-1]`
  | index          -- IndexError of `devices[...] = device` in `get_cpu_mesh`
  | mesh (e : Mesh.Err)
deriving DecidableEq

variable {D : Type}

/-- The numbers of the groups, in order: `sorted(granule_dict.keys())`. -/
def keys (key : D → Nat) (devs : List D) : List Nat := ((devs.map key).dedup).insertionSort (· ≤ ·)

/-- The devices of each group, in the order of `devs`. -/
def groups (key : D → Nat) (devs : List D) : List (List D) := (keys key devs).map fun k => devs.filter fun d => key d = k

/-- `create_device_mesh(mesh_shape, granule)` for every group. -/
def arrangeAll (arrange : List Nat → List D → Option (NDArray D)) (shape : List Nat) : List (List D) → Option (List (NDArray D))
  | [] => some []
  | g :: gs =>
    match arrange shape g, arrangeAll arrange shape gs with
    | some a, some as => some (a :: as)
    | _, _ => none

/-- `create_hybrid_device_mesh(mesh_shape, dcn_mesh_shape, devices)` of jax (see above).  That it fails for shapes of different lengths is a
simplification. -/
def hybrid (arrange : List Nat → List D → Option (NDArray D)) (key : D → Nat) (ici dcn : List Nat) (devs : List D) : Except Err (NDArray (Option D)) :=
  if ici.length ≠ dcn.length then .error .rank
  else if (groups key devs).length ≠ dcn.prod then .error .groups
  else match arrangeAll arrange ici (groups key devs) with
    | none => .error .devices
    | some as => .ok ⟨List.zipWith (· * ·) dcn ici, fun i =>
        (as[ravel dcn (List.zipWith (· / ·) i ici)]?).map fun a => a.get (List.zipWith (· % ·) i ici)⟩

/-- The two shapes of `get_gpu_mesh`, lines 274-281: inside a process and between processes. -/
def gpuShapes (p : Platform) (n : Nat) : Except Err (List Nat × List Nat) :=
  let mp := min n p.localCount
  if mp = 0 then .error .zeroDivision
  else if p.localCount % mp ≠ 0 ∨ n % mp ≠ 0 then .error .factor
  else .ok ([p.localCount / mp, mp], [p.processes / (n / mp), n / mp])

/-- `get_gpu_mesh`, lines 272-291. -/
def getGpuMesh (p : Platform) (arrange : List Nat → List Dev → Option (NDArray Dev)) (devs : List Dev) (n : Nat) : Except Err (NDArray (Option Dev)) :=
  match gpuShapes p n with
  | .error e => .error e
  | .ok (ici, dcn) => hybrid arrange Dev.process ici dcn devs

/-- `get_cpu_mesh`, lines 262-269. -/
def getCpuMesh (p : Platform) (devs : List Dev) : Except Err (NDArray (Option Dev)) :=
  if devs.any (fun d => !(d.process < p.processes && d.id % p.localCount < p.localCount)) then .error .index
  else .ok ⟨[p.processes, p.localCount], fun i =>
    devs.foldl (fun acc d => if [d.process, d.id % p.localCount] = i then some d else acc) none⟩

/-- `last_device.platform` and `device_kind`. -/
inductive Hardware where
  | cpu
  | gpu
  | tpu (k : Kind)

inductive Axis where
  | replica
  | data
  | model
deriving DecidableEq, Repr

/-- `default_mesh`, lines 294-411, with the names of the axes.  `slice` is `device.slice_index`, `locals` are the local devices of process 0. -/
def defaultMesh (p : Platform) (hw : Hardware) (arrange : List Nat → List Dev → Option (NDArray Dev)) (slice : Dev → Nat) (devs locals : List Dev)
    (n : Nat) (submesh ici dcn : Option (List Nat)) : Except Err (List Axis × NDArray (Option Dev)) :=
  match devs.getLast? with
  | none => .error .noDevices
  | some last =>
    let named : Except Err (NDArray (Option Dev)) → Except Err (List Axis × NDArray (Option Dev)) := fun r => r.map fun e => ([.data, .model], e)
    let lift : Except Mesh.Err (NDArray (Option Dev)) → Except Err (NDArray (Option Dev)) := fun r => r.mapError .mesh
    match ici, dcn with
    | some i, some d =>
      match hybrid arrange slice i d devs with
      | .error e => .error e
      | .ok e => if i.length ≠ 3 then .error .rank else .ok ([.replica, .data, .model], e)
    | _, _ =>
      match submesh with
      | some (x :: xs) => named (lift (getMesh p (x :: xs) devs locals true))
      | _ =>
        match hw with
        | .cpu => named (getCpuMesh p devs)
        | .gpu => named (getGpuMesh p arrange devs n)
        | .tpu k =>
          match defaultSubmesh k (bounds p last) n with
          | .error e => .error (.mesh e)
          | .ok m => named (lift (getMesh p m devs locals true))

end Verif.HybridMesh
