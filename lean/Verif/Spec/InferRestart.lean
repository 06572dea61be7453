import Verif.Model.InferRestart
/- Histories of restarted inference (property C37). -/
namespace Verif.InferRestart.Spec

variable {L : Type}

/-- The output file the user wants: the lines of all chunks in order. -/
def wanted (n : Nat) (content : Nat → List L) : List L := (List.range n).flatMap content

/-- The disks that can be left behind by any number of runs, each cut anywhere. -/
inductive Reachable (iter : Bool) (limit n : Nat) (content : Nat → List L) : Disk L → Prop
  | fresh : Reachable iter limit n content Disk.empty
  | run (d : Disk L) (order : List Target) (cut : Nat) :
    Reachable iter limit n content d → Reachable iter limit n content (runTo iter limit n content order cut d)

/-- The same, but no run is cut while it removes the temporary directory. -/
inductive ReachableClean (iter : Bool) (limit n : Nat) (content : Nat → List L) : Disk L → Prop
  | fresh : ReachableClean iter limit n content Disk.empty
  | run (d : Disk L) (order : List Target) (cut : Nat) :
    ReachableClean iter limit n content d →
    (cut ≤ (plan iter limit n content order d).work.length ∨
      (plan iter limit n content order d).work.length + (plan iter limit n content order d).clean.length ≤ cut) →
    ReachableClean iter limit n content (runTo iter limit n content order cut d)

end Verif.InferRestart.Spec
