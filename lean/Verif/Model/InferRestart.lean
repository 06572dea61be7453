import Verif.Common
/-
Restartable inference of one task: t5x/infer.py:173-202 (`merge_chunks_to_file`) and 551-733 (`infer_task`).

A run is a list of file-system operations; a crash cuts it at any point, also in the middle of a file.  The model is of
process 0 with `merge_chunked_results=True`.  Writes of one run are sequential (one worker thread).  `content k` is what
`write_fn` writes for chunk k: its lines, a function of the chunk alone (the random key of a chunk is derived from its number).
The iterator checkpoint consists of two files, `input.ckpt.data-…` and `input.ckpt.index`, renamed one after the other;
reading it succeeds when both belong to the same position and fails when one is missing or they differ.
-/
namespace Verif.InferRestart

variable {L : Type}

/-- The files of one task: in `tmp_dir` the chunk files, their `.COMPLETED` markers and the iterator checkpoint; in
`output_dir` the merged file and its `.COMPLETED` marker. -/
structure Disk (L : Type) where
  chunk : Nat → Option (List L)
  marker : Nat → Bool
  ckptD : Option Nat
  ckptI : Option Nat
  out : Option (List L)
  done : Bool

def Disk.empty : Disk L := ⟨fun _ => none, fun _ => false, none, none, none, false⟩

/-- Files `rmtree` removes one by one. -/
inductive Target | chunk (k : Nat) | marker (k : Nat) | ckptD | ckptI
deriving DecidableEq, Repr

inductive Op (L : Type)
  | openChunk (k : Nat) | line (k : Nat) (l : L) | mark (k : Nat)
  | renD (p : Nat) | renI (p : Nat)
  | openOut | outLine (l : L)
  | rm (t : Target) | rmTree
  | setDone

def set {A : Type} (f : Nat → A) (k : Nat) (a : A) : Nat → A := fun j => if j = k then a else f j

def apply (d : Disk L) : Op L → Disk L
  | .openChunk k => { d with chunk := set d.chunk k (some []) }
  | .line k l => { d with chunk := set d.chunk k ((d.chunk k).map (· ++ [l])) }
  | .mark k => { d with marker := set d.marker k true }
  | .renD p => { d with ckptD := some p }
  | .renI p => { d with ckptI := some p }
  | .openOut => { d with out := some [] }
  | .outLine l => { d with out := d.out.map (· ++ [l]) }
  | .rm (.chunk k) => { d with chunk := set d.chunk k none }
  | .rm (.marker k) => { d with marker := set d.marker k false }
  | .rm .ckptD => { d with ckptD := none }
  | .rm .ckptI => { d with ckptI := none }
  | .rmTree => { d with chunk := fun _ => none, marker := fun _ => false, ckptD := none, ckptI := none }
  | .setDone => { d with done := true }

def applyAll (d : Disk L) (ops : List (Op L)) : Disk L := ops.foldl apply d

inductive Err | data | assertion | notFound
deriving DecidableEq, Repr

/-- infer.py:580-588: the chunk to start from. -/
def start (iter : Bool) (d : Disk L) : Option Nat :=
  if iter then
    match d.ckptD, d.ckptI with
    | none, none => some 0
    | some a, some b => if a = b then some a else none
    | _, _ => none
  else some 0

/-- infer.py:610-640: write the results of chunk k, mark it, move the iterator checkpoint to its place. -/
def chunkOps (iter : Bool) (k : Nat) (content : List L) : List (Op L) :=
  Op.openChunk k :: content.map (Op.line k) ++ Op.mark k :: (if iter then [Op.renD (k + 1), Op.renI (k + 1)] else [])

/-- infer.py:643-711: the loop over the `r` chunks from k on. -/
def chunkPhase (iter : Bool) (content : Nat → List L) : Nat → Nat → Disk L → List (Op L) × Option Err
  | 0, _, _ => ([], none)
  | r + 1, k, d =>
    if d.marker k = true ∧ iter = false then
      if d.chunk k = none then ([], some .assertion) else chunkPhase iter content r (k + 1) d
    else
      let ops := chunkOps iter k (content k)
      let rest := chunkPhase iter content r (k + 1) (applyAll d ops)
      (ops ++ rest.1, rest.2)

/-- infer.py:182-201: `limit` is the number of names the pattern `chunk?????` can match. -/
def mergeOps (limit : Nat) (d : Disk L) : List (Op L) × Option Err :=
  let ks := (List.range limit).filter (fun k => (d.chunk k).isSome)
  match ks.getLast? with
  | none => ([], some .notFound)
  | some last =>
    if last + 1 ≠ ks.length then ([], some .assertion)
    else (Op.openOut :: (ks.flatMap (fun k => (d.chunk k).getD [])).map Op.outLine, none)

/-- The operations of a run: the chunks and the merge; the removal of `tmp_dir`; the marker. -/
structure Plan (L : Type) where
  work : List (Op L)
  clean : List (Op L)
  finish : List (Op L)
  err : Option Err

def Plan.ops (p : Plan L) : List (Op L) := p.work ++ p.clean ++ p.finish

/-- infer.py:551-729 `infer_task` on a data set of n chunks, started on disk d.  `order` is the order in which `rmtree`
removes files; it ends with whatever is left. -/
def plan (iter : Bool) (limit n : Nat) (content : Nat → List L) (order : List Target) (d : Disk L) : Plan L :=
  match start iter d with
  | none => ⟨[], [], [], some .data⟩
  | some p =>
    if d.done then ⟨[], [], [], none⟩
    else
      let c := chunkPhase iter content (n - p) p d
      match c.2 with
      | some e => ⟨c.1, [], [], some e⟩
      | none =>
        let m := mergeOps limit (applyAll d c.1)
        match m.2 with
        | some e => ⟨c.1 ++ m.1, [], [], some e⟩
        | none => ⟨c.1 ++ m.1, order.map Op.rm ++ [.rmTree], [.setDone], none⟩

/-- A run that is cut after `cut` operations (never, if that is more than there are). -/
def runTo (iter : Bool) (limit n : Nat) (content : Nat → List L) (order : List Target) (cut : Nat) (d : Disk L) : Disk L :=
  applyAll d ((plan iter limit n content order d).ops.take cut)

/-- A run to its end. -/
def runAll (iter : Bool) (limit n : Nat) (content : Nat → List L) (order : List Target) (d : Disk L) : Disk L :=
  applyAll d (plan iter limit n content order d).ops

/-- `chunk?????`: five characters, so the names of chunks 0 to 99999. -/
def globLimit : Nat := 100000

/-- infer.py:573-577: the data set in chunks of c examples, the last one possibly shorter. -/
def chunksOf {X : Type} (c : Nat) (xs : List X) : Nat → List X := fun k => (xs.drop (k * c)).take c

end Verif.InferRestart
