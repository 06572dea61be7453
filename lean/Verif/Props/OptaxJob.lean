import Verif.Model.OptaxJob
import Verif.Props.TrainInfer
/-
C133: jobs that train with an optax optimizer.  Composes C46 (state dicts), C126 (jobs) and C127 (inference).
-/
namespace Verif.OptaxJob
open Verif Verif.StateDict
open Verif.SaveRestore (Ops mapL)
open Verif.SaveRestore.Spec (Like SameKind Good)
open Verif.OptaxState.Spec (arrayAt)
open Verif.TrainState (TState Kind stateDict)
open Verif.TrainedJob (whole comp Codec)
open Verif.TrainedJob.Spec (Alike AlikeM GoodCodec Keeps batches)
open Verif.JobFiles (Store Content prog)
open Verif.JobFiles.Spec (Fine Tmp History)
open Verif.Ckpt (ckptName pathJoin latestStep)
open Verif.TsPath (Str)
open Verif.TrainInfer (Reader latest)
open Verif.TrainInfer.Spec (Suits castAll)

variable {A T G H : Type} {F : Ops A T} {add : A → A → A}

namespace Spec

/-- The arithmetic: casts as in checkpoints; the sum of arrays of one shape has this shape. -/
structure Arith (F : Ops A T) (add : A → A → A) : Prop where
  casts : Good F
  add : ∀ a b, F.shape a = F.shape b → F.shape (add a b) = F.shape a

/-- What optax promises: for parameters and a state like the initial ones, the updates have the entries and shapes of the parameters (in any dtypes), and the new
state has the entries, shapes and dtypes of the initial one; `init` gives such a state. -/
structure Contract (F : Ops A T) (t : Transform A G) (params state : Dict (Option A)) : Prop where
  init : ∀ p, Alike F p params → Alike F (t.init p) state
  updates : ∀ g p o, Alike F p params → Alike F o state → Like (fun _ => SameKind F) [] (t.update g o p).1 params
  state : ∀ g p o, Alike F p params → Alike F o state → Alike F (t.update g o p).2 state

end Spec
open Spec

theorem apply_like (hF : Arith F add) (q : Dict (Option A)) : ∀ (pre pre' pre'' : List Key) (p v : Dict (Option A)),
    Like (fun _ x y => SameKind F x y ∧ x.map F.dtype = y.map F.dtype) pre p q → Like (fun _ => SameKind F) pre' v q →
    ∃ p', applyUpdates F add p v = some p' ∧ Like (fun _ x y => SameKind F x y ∧ x.map F.dtype = y.map F.dtype) pre'' p' q ∧
      ∀ path a, arrayAt p path = some (some a) → ∃ b, arrayAt v path = some (some b) ∧ F.shape b = F.shape a ∧
        arrayAt p' path = some (some (F.cast (F.dtype a) (add a b))) := by
  induction q with
  | nil =>
    intro pre pre' pre'' p v hp hv
    cases p with
    | leaf => exact hp.elim
    | sub => exact hp.elim
    | nil =>
    cases v with
    | leaf => exact hv.elim
    | sub => exact hv.elim
    | nil =>
    refine ⟨_, rfl, trivial, fun path a h => ?_⟩
    cases path with
    | nil => rw [Fallback.arrayAt_nil] at h; cases h
    | cons k ks => rw [Fallback.arrayAt_cons, Dict.get, Fallback.sel_none] at h; cases h
  | leaf k w r ih =>
    intro pre pre' pre'' p v hp hv
    cases p with
    | nil => exact hp.elim
    | sub => exact hp.elim
    | leaf k1 x rp =>
    cases v with
    | nil => exact hv.elim
    | sub => exact hv.elim
    | leaf k2 y rv =>
    obtain ⟨rfl, ⟨hx, hd⟩, hp'⟩ := hp
    obtain ⟨rfl, hy, hv'⟩ := hv
    obtain ⟨s, e1, e2, e3⟩ := ih _ _ pre'' _ _ hp' hv'
    have hleaf : ∃ z, applyLeaf F add x y = some z ∧ SameKind F z w ∧ z.map F.dtype = w.map F.dtype ∧
        ∀ a, x = some a → ∃ b, y = some b ∧ F.shape b = F.shape a ∧ z = some (F.cast (F.dtype a) (add a b)) := by
      unfold SameKind at hx hy ⊢
      cases w with
      | none =>
        cases x with
        | some => cases hx
        | none =>
        cases y with
        | some => cases hy
        | none => exact ⟨none, rfl, rfl, rfl, fun a h => by cases h⟩
      | some w =>
        cases x with
        | none => cases hx
        | some x =>
        cases y with
        | none => cases hy
        | some y =>
          have hx := Option.some.inj hx
          have hy := Option.some.inj hy
          refine ⟨_, rfl, ?_, ?_, fun a h => ?_⟩
          · rw [Option.map_some, Option.map_some, hF.casts.shape, hF.add _ _ (hx.trans hy.symm), hx]
          · rw [Option.map_some, hF.casts.dtype]; exact hd
          · cases h
            exact ⟨y, rfl, hy.trans hx.symm, rfl⟩
    obtain ⟨z, z1, z2, z3, z4⟩ := hleaf
    refine ⟨.leaf k2 z s, ?_, ⟨rfl, ⟨z2, z3⟩, e2⟩, ?_⟩
    · rw [applyUpdates, if_pos rfl, z1, e1]
    · intro path a h
      cases path with
      | nil => rw [Fallback.arrayAt_nil] at h; cases h
      | cons k' ks =>
        rw [Fallback.arrayAt_leaf] at h ⊢
        rw [Fallback.arrayAt_leaf]
        split_ifs at h ⊢ with c1 c2
        · obtain ⟨b, b1, b2, b3⟩ := z4 a (Option.some.inj h)
          exact ⟨b, by rw [b1], b2, by rw [b3]⟩
        · exact e3 _ _ h
  | sub k d r ihd ih =>
    intro pre pre' pre'' p v hp hv
    cases p with
    | nil => exact hp.elim
    | leaf => exact hp.elim
    | sub k1 dp rp =>
    cases v with
    | nil => exact hv.elim
    | leaf => exact hv.elim
    | sub k2 dv rv =>
    obtain ⟨rfl, hd, hp'⟩ := hp
    obtain ⟨rfl, hy, hv'⟩ := hv
    obtain ⟨s, e1, e2, e3⟩ := ih _ _ pre'' _ _ hp' hv'
    obtain ⟨s', f1, f2, f3⟩ := ihd _ _ (pre'' ++ [k2]) _ _ hd hy
    refine ⟨.sub k2 s' s, ?_, ⟨rfl, f2, e2⟩, ?_⟩
    · rw [applyUpdates, if_pos rfl, f1, e1]
    · intro path a h
      cases path with
      | nil => rw [Fallback.arrayAt_nil] at h; cases h
      | cons k' ks =>
        rw [Fallback.arrayAt_sub] at h ⊢
        rw [Fallback.arrayAt_sub]
        split_ifs at h ⊢ with c1
        · exact f3 _ _ h
        · exact e3 _ _ h

/-- **C133** (one step).  `OptaxWrapper.apply_gradient` raises no error for parameters and a state like the initial ones.  The new parameters have the entries,
shapes and dtypes of the old ones, in whatever dtype the updates come; each is the sum of the parameter and the update with its name, cast to the dtype of the
parameter.  The new state is the one of the transformation, the step is counted, and the hyper parameters do not matter. -/
theorem C133_step (hF : Arith F add) (t : Transform A G) {params state : Dict (Option A)} (ht : Contract F t params state) (hyper : H) (n : Nat) (g : G)
    (p o : Dict (Option A)) (hp : Alike F p params) (ho : Alike F o state) :
    ∃ p', applyGradient F add t hyper p (n, o) g = some (p', (n + 1, (t.update g o p).2)) ∧ Alike F p' params ∧ Alike F (t.update g o p).2 state ∧
      ∀ path a, arrayAt p path = some (some a) → ∃ b, arrayAt (t.update g o p).1 path = some (some b) ∧ F.shape b = F.shape a ∧
        arrayAt p' path = some (some (F.cast (F.dtype a) (add a b))) := by
  obtain ⟨p', h1, h2, h3⟩ := apply_like hF params [] [] [] p _ hp (ht.updates g p o hp ho)
  refine ⟨p', ?_, h2, ht.state g p o hp ho, h3⟩
  simp only [applyGradient, h1]

theorem update_eq (hF : Arith F add) (t : Transform A G) {params state : Dict (Option A)} (ht : Contract F t params state) (lr : H) (n : Nat) (g : G)
    (p o : Dict (Option A)) (hp : Alike F p params) (ho : Alike F o state) :
    Alike F (update F add t lr n p o g).1 params ∧ Alike F (update F add t lr n p o g).2 state := by
  obtain ⟨p', h1, h2, h3, -⟩ := C133_step hF t ht lr n g p o hp ho
  unfold update
  rw [h1]
  exact ⟨h2, h3⟩

variable {Mu R Row σ B K : Type} [Add K] [One K] [AddMonoid G]

/-- **C133** (learning rate).  The learning rate of the trainer has no effect on training with an optax optimizer: two trainers that differ in
`learning_rate_fn` only compute the same train states, and raise the same errors (though they report different learning rates). -/
theorem C133_learning_rate (t : Transform A G) (cfg : Train.Cfg K (Dict (Option A)) G (Dict (Option A)) Mu R Row) (hu : cfg.update = update F add t)
    (lr : Nat → K) (s : Train.State (Dict (Option A)) (Dict (Option A)) Mu) (bs : List (Train.Batch Row)) :
    Train.Spec.run (Train.trainStep { cfg with lr := lr }) s bs = Train.Spec.run (Train.trainStep cfg) s bs := by
  induction bs generalizing s with
  | nil => rfl
  | cons b bs ih =>
    simp only [Train.Spec.run]
    have : (Train.trainStep { cfg with lr := lr } s b).map Prod.fst = (Train.trainStep cfg s b).map Prod.fst := by
      unfold Train.trainStep
      simp only
      cases Train.accumulate cfg.split cfg.lossGrad s.params s.mutables b (cfg.foldIn cfg.baseRng s.step) cfg.microbatches with
      | error e => rfl
      | ok a =>
        simp only [Except.map, Train.applyGradient, hu]
        rfl
    cases h1 : Train.trainStep { cfg with lr := lr } s b with
    | error e =>
      rw [h1] at this
      cases h2 : Train.trainStep cfg s b with
      | error e' => rw [h2] at this; cases this; rfl
      | ok r => rw [h2] at this; cases this
    | ok r =>
      rw [h1] at this
      cases h2 : Train.trainStep cfg s b with
      | error e' => rw [h2] at this; cases this
      | ok r' =>
        rw [h2] at this
        obtain ⟨r1, r2⟩ := r
        obtain ⟨q1, q2⟩ := r'
        cases this
        exact ih _

namespace Spec

/-- The checkpointer is made for a train state like the initial one; the trainer updates with `OptaxWrapper`; the model keeps the entries of the mutables. -/
structure Prepared (c : Store A T) (add : A → A → A) (t : Transform A G) (e : Codec A (Dict (Option A)) (Dict (Option A)) Mu) (u : TState (Option A))
    (cfg : Train.Cfg K (Dict (Option A)) G (Dict (Option A)) Mu R Row) (p0 : Dict (Option A)) (mu0 : Option Mu) : Prop where
  arith : Arith c.O add
  contract : Contract c.O t u.params u.paramStates
  layout : ∃ num val encM decM, e = codec num val encM decM ∧ (∀ n, val (num n) = some n) ∧ (∀ m, decM (encM m) = some m ∧ encM m ≠ []) ∧
    ∃ a, u.step = some a ∧ ∀ n, c.O.shape (num n) = c.O.shape a ∧ c.O.dtype (num n) = c.O.dtype a
  like : ∃ sd, stateDict .optax u = some sd ∧ c.like_ = whole sd
  names : SaveRestore.Spec.Clean u.params ∧ SaveRestore.Spec.Clean u.paramStates
  start : Alike c.O p0 u.params
  update : cfg.update = update c.O add t
  mutables0 : AlikeM c.O (e.mutables mu0) u.mutables
  mutables : ∀ p b r mu, AlikeM c.O (e.mutables mu) u.mutables → AlikeM c.O (e.mutables (cfg.lossGrad p b r mu).2.1) u.mutables

end Spec

variable {c : Store A T} {t : Transform A G} {e : Codec A (Dict (Option A)) (Dict (Option A)) Mu} {u : TState (Option A)}
  {cfg : Train.Cfg K (Dict (Option A)) G (Dict (Option A)) Mu R Row} {p0 : Dict (Option A)} {mu0 : Option Mu}

theorem good_codec (h : Prepared c add t e u cfg p0 mu0) : GoodCodec e := by
  obtain ⟨num, val, encM, decM, rfl, h1, h2, -⟩ := h.layout
  exact ⟨fun _ => rfl, fun _ => rfl, h2, h1⟩

/-- **C133** (what jobs need).  What the theorems about jobs assume of an optimizer holds for `OptaxWrapper` around any transformation that keeps its promises. -/
theorem C133_keeps (h : Prepared c add t e u cfg p0 mu0) (n0 : Nat) : Keeps c .optax u e cfg ⟨n0, p0, (initState t p0).2, mu0⟩ := by
  obtain ⟨num, val, encM, decM, rfl, h1, h2, h3⟩ := h.layout
  refine ⟨h.like, h.names, h3, ⟨h.start, h.contract.init _ h.start, h.mutables0⟩, fun lr n p o g hp ho => ?_, h.mutables⟩
  rw [h.update]
  exact update_eq h.arith t h.contract lr n g p o hp ho

/-- **C133** (no error).  In every state that the trainer reaches from the initial one, with any batches, parameters and state of the optimizer are like the
initial ones; the next `apply_gradient` raises no error for any gradients and learning rate, and its result is what the trainer goes on with. -/
theorem C133_run (h : Prepared c add t e u cfg p0 mu0) (n0 : Nat) (bs : List (Train.Batch Row)) (s : Train.State (Dict (Option A)) (Dict (Option A)) Mu)
    (hs : Train.Spec.run (Train.trainStep cfg) ⟨n0, p0, (initState t p0).2, mu0⟩ bs = .ok s) :
    s.step = n0 + bs.length ∧ Alike c.O s.params u.params ∧ Alike c.O s.opt u.paramStates ∧
      ∀ lr g, ∃ p' o', applyGradient c.O add t lr s.params (s.step, s.opt) g = some (p', (s.step + 1, o')) ∧ cfg.update lr s.step s.params s.opt g = (p', o') := by
  have key : ∀ (bs : List (Train.Batch Row)) (s0 s : Train.State (Dict (Option A)) (Dict (Option A)) Mu), Alike c.O s0.params u.params →
      Alike c.O s0.opt u.paramStates → Train.Spec.run (Train.trainStep cfg) s0 bs = .ok s →
      s.step = s0.step + bs.length ∧ Alike c.O s.params u.params ∧ Alike c.O s.opt u.paramStates := by
    intro bs
    induction bs with
    | nil => intro s0 s h1 h2 h3; cases h3; exact ⟨rfl, h1, h2⟩
    | cons b bs ih =>
      intro s0 s h1 h2 h3
      simp only [Train.Spec.run] at h3
      split at h3
      · cases h3
      · rename_i s1 m hs1
        unfold Train.trainStep at hs1
        split at hs1
        · cases hs1
        · rename_i a ha
          cases hs1
          obtain ⟨q1, q2⟩ := update_eq h.arith t h.contract (cfg.lr s0.step) s0.step a.grad s0.params s0.opt h1 h2
          obtain ⟨r1, r2⟩ := ih _ s (by simp only [Train.applyGradient, h.update]; exact q1) (by simp only [Train.applyGradient, h.update]; exact q2) h3
          refine ⟨?_, r2⟩
          rw [r1, List.length_cons, Train.applyGradient]
          dsimp only
          omega
  obtain ⟨k1, k2, k3⟩ := key bs _ s h.start (h.contract.init _ h.start) hs
  refine ⟨k1, k2, k3, fun lr g => ?_⟩
  obtain ⟨p', e1, -⟩ := C133_step h.arith t h.contract lr s.step g s.params s.opt k2 k3
  exact ⟨p', _, e1, by rw [h.update, update, e1]⟩

variable [DecidableEq T] {α : Type} [LinearOrder α] [BoundedOrder α] {pipe : DsCkpt.Pipe σ B} {seed : Nat} {glue : (Nat → Option B) → Train.Batch Row}
  {r : Reader A T}

/-- **C133** (the job).  A job that trains with an optax optimizer, from its initial state, is started any number of times and killed at any moment, also while it
writes a file.  The parameters and the whole state of the optimizer (momenta, counts of schedules, states without arrays) are those that `Trainer` computes with
the first `k` batches of the data set in this order, where `k` is the number of steps counted; the learning rate of the trainer does not matter. -/
theorem C133_job (hc : Fine c) (h : Prepared c add t e u cfg p0 mu0) (n0 : Nat) {tmp : Str} (ht : Tmp c tmp) {n : Nat} (hn : 0 < n)
    (hrun : ∀ k, ∃ s, Train.Spec.run (Train.trainStep cfg) ⟨n0, p0, (initState t p0).2, mu0⟩ (batches pipe seed glue n k) = .ok s)
    (acts : List (TrainJob.Act (Train.State (Dict (Option A)) (Dict (Option A)) Mu) σ (Content A T σ) α)) (hh : History n acts)
    (l : TrainJob.Live (Train.State (Dict (Option A)) (Dict (Option A)) Mu) σ)
    (hl : (TrainJob.job (prog c (comp .optax u e cfg ⟨n0, p0, (initState t p0).2, mu0⟩ pipe seed glue) tmp) acts).live = some l) :
    ∃ k, l.m.step = n0 + k ∧
      (∀ lr, Train.Spec.run (Train.trainStep { cfg with lr := lr }) ⟨n0, p0, (initState t p0).2, mu0⟩ (batches pipe seed glue n k) = .ok l.m) ∧
      ∀ x ∈ l.hosts, ∀ j, DsCkpt.batchAt pipe j x = some (pipe.out (pipe.next^[k + j] (pipe.init seed x.layout.shardId n))) := by
  obtain ⟨k, h1, h2, -, h4⟩ := TrainedJob.C126_job hc (C133_keeps h n0) (good_codec h) ht hn hrun acts hh l hl
  exact ⟨k, h1, fun lr => (C133_learning_rate t cfg h.update lr _ _).trans h2, h4⟩

/-- **C133** (inference).  An inference job that restores the latest checkpoint of such a job has the parameters that `Trainer` computes, cast to the dtype asked
for. -/
theorem C133_inference (hc : Fine c) (h : Prepared c add t e u cfg p0 mu0) (n0 : Nat) {tmp : Str} (ht : Tmp c tmp) {n : Nat}
    (hrun : ∀ k, ∃ s, Train.Spec.run (Train.trainStep cfg) ⟨n0, p0, (initState t p0).2, mu0⟩ (batches pipe seed glue n k) = .ok s) (hr : Suits c u r)
    (acts : List (TrainJob.Act (Train.State (Dict (Option A)) (Dict (Option A)) Mu) σ (Content A T σ) α)) (hh : History n acts) (N : Nat)
    (hs : latestStep (TrainJob.job (prog c (comp .optax u e cfg ⟨n0, p0, (initState t p0).2, mu0⟩ pipe seed glue) tmp) acts).fs = some N) (loc : Str)
    (hloc : TsPath.Spec.Dir (pathJoin loc (ckptName N))) :
    ∃ k s x, N = n0 + k ∧ Train.Spec.run (Train.trainStep cfg) ⟨n0, p0, (initState t p0).2, mu0⟩ (batches pipe seed glue n k) = .ok s ∧
      latest r loc (TrainJob.job (prog c (comp .optax u e cfg ⟨n0, p0, (initState t p0).2, mu0⟩ pipe seed glue) tmp) acts).fs = some x ∧
      x.params = castAll c.O r.dtype s.params ∧ x.step = some (e.num N) := by
  obtain ⟨k, s, h1, h2, h3⟩ := TrainInfer.C127_restore hc (C133_keeps h n0) (good_codec h) hr ht hrun acts hh N hs loc hloc
  obtain ⟨num, val, encM, decM, rfl, -⟩ := h.layout
  exact ⟨k, s, _, h1, h2, h3, rfl, rfl⟩

/-! ### The hypotheses are met -/

section Examples

/-- Shape, dtype, content. -/
abbrev Arr := List Nat × Nat × Nat

def exOps : Ops Arr Nat := ⟨fun a => a.2.1, fun a => a.1, fun t a => (a.1, t, a.2.2), 2, 3⟩

/-- Sums have the dtype 9. -/
def exAdd (a b : Arr) : Arr := (a.1, 9, a.2.2 + b.2.2)

theorem exArith : Arith exOps exAdd := ⟨⟨fun _ _ => rfl, fun _ _ => rfl, fun _ => rfl⟩, fun _ _ _ => rfl⟩

def exP (x y : Nat) : Dict (Option Arr) := .leaf "w".toList (some ([4, 2], 0, x)) (.sub "d".toList (.leaf "b".toList (some ([4], 1, y)) .nil) .nil)

/-- A chain of a transformation without state, momentum, and a schedule that counts. -/
def exT : Transform Arr Nat where
  init p := .sub "0".toList .nil (.sub "1".toList (.sub "trace".toList (mapL (fun _ x => x.map fun a => (a.1, a.2.1, 0)) [] p) .nil)
    (.sub "2".toList (.leaf "count".toList (some ([], 5, 0)) .nil) .nil))
  update g o p := (mapL (fun path x => x.map fun a => (a.1, 9, (((arrayAt o ("1".toList :: "trace".toList :: path)).join).elim 0 fun m => m.2.2) + g)) [] p,
    mapL (fun path x => x.map fun a => (a.1, a.2.1, if path = ["2".toList, "count".toList] then a.2.2 + 1 else a.2.2 + g)) [] o)

theorem like_map_left {α β γ : Type} {Q : α → β → Prop} {Q' : γ → β → Prop} (g : List Key → α → γ) (hg : ∀ p x y, Q x y → Q' (g p x) y) (a : Dict α) :
    ∀ (pre pre' pre'' : List Key) (b : Dict β), Like (fun _ => Q) pre a b → Like (fun _ => Q') pre' (mapL g pre'' a) b := by
  induction a with
  | nil => intro pre pre' pre'' b h; cases b <;> first | trivial | exact h.elim
  | leaf k x r ih =>
    intro pre pre' pre'' b h
    cases b with
    | nil => exact h.elim
    | sub => exact h.elim
    | leaf k' y r' => exact ⟨h.1, hg _ _ _ h.2.1, ih _ _ _ _ h.2.2⟩
  | sub k d r ihd ih =>
    intro pre pre' pre'' b h
    cases b with
    | nil => exact h.elim
    | leaf => exact h.elim
    | sub k' d' r' => exact ⟨h.1, ihd _ _ _ _ h.2.1, ih _ _ _ _ h.2.2⟩

theorem exContract : Contract exOps exT (exP 0 0) (exT.init (exP 0 0)) where
  init p hp := by
    refine ⟨rfl, trivial, rfl, ⟨rfl, ?_, trivial⟩, rfl, ⟨rfl, ⟨rfl, rfl⟩, trivial⟩, trivial⟩
    have h1 : Like (fun _ x y => SameKind exOps x y ∧ x.map exOps.dtype = y.map exOps.dtype) [] p
        (mapL (fun _ x => x.map fun a => (a.1, a.2.1, 0)) [] (exP 0 0)) := hp
    exact like_map_left (Q := fun x y => SameKind exOps x y ∧ x.map exOps.dtype = y.map exOps.dtype) _ (fun _ x y h => by
      cases x with
      | none => exact h
      | some a => exact h) p _ _ _ _ h1
  updates g p o hp _ := like_map_left (Q := fun x y => SameKind exOps x y ∧ x.map exOps.dtype = y.map exOps.dtype) (Q' := SameKind exOps) _ (fun _ x y h => by
    cases x with
    | none => exact h.1
    | some a => exact h.1) p _ _ _ _ hp
  state g p o _ ho := like_map_left (Q := fun x y => SameKind exOps x y ∧ x.map exOps.dtype = y.map exOps.dtype)
    (Q' := fun x y => SameKind exOps x y ∧ x.map exOps.dtype = y.map exOps.dtype) _ (fun _ x y h => by
      cases x with
      | none => exact h
      | some a => exact h) o _ _ _ _ ho

/-- One step: updates of another dtype, parameters keep theirs. -/
example : (applyGradient exOps exAdd exT () (exP 10 20) (7, exT.init (exP 0 0)) 3).map (fun r => (r.1, r.2.1, arrayAt r.2.2 ["2".toList, "count".toList])) =
    some (exP 13 23, 8, some (some ([], 5, 1))) := by rfl

example (g : Nat) : ∃ p', applyGradient exOps exAdd exT 0.1 (exP 10 20) (7, exT.init (exP 1 1)) g = some (p', (8, (exT.update g (exT.init (exP 1 1)) (exP 10 20)).2)) ∧
    Alike exOps p' (exP 0 0) :=
  let h : Alike exOps (exP 10 20) (exP 0 0) := ⟨rfl, ⟨rfl, rfl⟩, rfl, ⟨rfl, ⟨rfl, rfl⟩, trivial⟩, trivial⟩
  let ⟨p', h1, h2, _⟩ := C133_step exArith exT exContract 0.1 7 g (exP 10 20) _ h (exContract.init (exP 1 1) ⟨rfl, ⟨rfl, rfl⟩, rfl, ⟨rfl, ⟨rfl, rfl⟩, trivial⟩, trivial⟩)
  ⟨p', h1, h2⟩

def exCod : Codec Arr (Dict (Option Arr)) (Dict (Option Arr)) Unit :=
  codec (fun n => ([], 5, n)) (fun a => some a.2.2) (fun _ => [("cache".toList, .nil)]) (fun _ => some ())

def exU : TState (Option Arr) := ⟨exP 0 0, some ([], 5, 0), exT.init (exP 0 0), none, [], none⟩

def exStore : Store Arr Nat where
  O := exOps
  dtype := none
  onDevices := true
  dir := "/m".toList
  axes p := p ≠ ["state".toList, "step".toList]
  like_ := ((stateDict .optax exU).map whole).getD .nil
  fns := []

/-- What is saved: the empty state is left out. -/
theorem exLike : exStore.like_ = .sub "target".toList (exP 0 0) (.sub "state".toList (.leaf "step".toList (some ([], 5, 0)) (.sub "param_states".toList
    (.sub "1".toList (.sub "trace".toList (exP 0 0) .nil) (.sub "2".toList (.leaf "count".toList (some ([], 5, 0)) .nil) .nil)) .nil)) .nil) := by decide +kernel

theorem exFine : Fine exStore where
  ops := exArith.casts
  keys := by
    rw [exLike]
    simp only [exP, SaveRestore.Spec.Clean]
    repeat' (first | exact trivial | refine And.intro ?_ ?_ | decide | simp [Dict.keys])
  nested := by rw [exLike]; simp [JobFiles.Spec.Nested, exP]
  dir := TrainedJob.exDir
  leaves := by
    rw [exLike]
    simp only [exP, SaveRestore.Spec.Every]
    repeat' (first | exact trivial | refine And.intro ?_ ?_)
    all_goals
      intro a ha
      cases ha
      exact ⟨fun _ => by simp [exStore, exOps], fun _ t ht => by cases ht⟩
  unpartitioned _ p hp := by
    simp only [exStore, decide_eq_true_eq]
    rintro rfl
    exact absurd hp (by decide)
  target h := absurd rfl h
  fns f h := by cases h

/-- Gradients are sums over the rows of the batch, in two microbatches. -/
def exCfg : Train.Cfg Nat (Dict (Option Arr)) Nat (Dict (Option Arr)) Unit Unit Nat where
  lossGrad _ b _ mu := ([("loss".toList, .avgStep 1 1)], mu, (b.map fun x => x.2.sum).sum)
  update := update exOps exAdd exT
  lr n := n + 1
  foldIn r _ := r
  split r := (r, r)
  baseRng := ()
  microbatches := none
  weightMetrics _ _ _ := []

theorem exPrepared : Prepared exStore exAdd exT exCod exU exCfg (exP 1 2) none where
  arith := exArith
  contract := exContract
  layout := ⟨_, _, _, _, rfl, fun _ => rfl, fun _ => ⟨rfl, by simp⟩, _, rfl, fun _ => ⟨rfl, rfl⟩⟩
  like := by
    have : (stateDict .optax exU).isSome = true := by decide +kernel
    obtain ⟨sd, h⟩ := Option.isSome_iff_exists.1 this
    exact ⟨sd, h, by simp only [exStore, h, Option.map_some, Option.getD_some]⟩
  names := by
    simp only [exU, exT, exP, mapL, SaveRestore.Spec.Clean]
    repeat' (first | exact trivial | refine And.intro ?_ ?_ | decide | simp [Dict.keys])
  start := ⟨rfl, ⟨rfl, rfl⟩, rfl, ⟨rfl, ⟨rfl, rfl⟩, trivial⟩, trivial⟩
  update := rfl
  mutables0 := .nil
  mutables _ _ _ _ h := h

def exInit : Train.State (Dict (Option Arr)) (Dict (Option Arr)) Unit := ⟨0, exP 1 2, (initState exT (exP 1 2)).2, none⟩

theorem exRun : ∀ k, ∃ s, Train.Spec.run (Train.trainStep exCfg) exInit (batches TrainedJob.exPipe 0 TrainedJob.exGlue 2 k) = .ok s := by
  have : ∀ (bs : List (Nat → Option Nat)) (s : Train.State (Dict (Option Arr)) (Dict (Option Arr)) Unit),
      ∃ s', Train.Spec.run (Train.trainStep exCfg) s (bs.map TrainedJob.exGlue) = .ok s' := by
    intro bs
    induction bs with
    | nil => exact fun s => ⟨s, rfl⟩
    | cons b bs ih =>
      intro s
      obtain ⟨s1, v, h⟩ : ∃ s1 v, Train.trainStep exCfg s (TrainedJob.exGlue b) = .ok (s1, v) := ⟨_, _, rfl⟩
      obtain ⟨s', h'⟩ := ih s1
      refine ⟨s', ?_⟩
      simp only [List.map_cons, Train.Spec.run, h]
      exact h'
  intro k
  have h := this ((List.range k).map fun i s => if s < 2 then some (TrainedJob.exPipe.out (TrainedJob.exPipe.next^[i] (TrainedJob.exPipe.init 0 s 2))) else none) exInit
  rw [List.map_map] at h
  exact h

theorem exTmp_ok : Tmp exStore TrainedJob.exTmp :=
  ⟨fun h => absurd h (by decide), show TsPath.gsPrefix.isPrefixOf "/m".toList = TsPath.gsPrefix.isPrefixOf TrainedJob.exTmp by decide⟩

/-- Killed while it writes a checkpoint, restarted on another cluster and killed again: the latest checkpoint is the one of step 5. -/
theorem exLatest : latestStep (TrainJob.job (prog exStore (comp .optax exU exCod exCfg exInit TrainedJob.exPipe 0 TrainedJob.exGlue) TrainedJob.exTmp)
    (TrainedJob.exActs _ _)).fs = some 5 := by decide +kernel

def exReader : Reader Arr Nat where
  O := exOps
  dtype := some 1
  onDevices := true
  dir := "/n".toList
  axes := fun _ => true
  like_ := ⟨some ([], 5, 7), exP 0 0, none, [], none⟩

theorem exReader_suits : Suits exStore exU exReader where
  ops := rfl
  params := ⟨rfl, rfl, rfl, ⟨rfl, rfl, trivial⟩, trivial⟩
  step := rfl
  mutables := .nil
  names := by
    simp only [exReader, exP, TrainState.iStateDict, whole, TrainState.optState, TrainState.orNone, List.isEmpty_nil, if_true, Fallback.Spec.Ordinary]
    repeat' (first | exact trivial | refine And.intro ?_ ?_ | decide | simp [Dict.keys])
  full := by simp [exReader, exP, TrainState.iStateDict, whole, TrainState.orNone, Fallback.Full]
  axes _ _ := .inl rfl

example : ∃ k s x, 5 = 0 + k ∧ Train.Spec.run (Train.trainStep exCfg) exInit (batches TrainedJob.exPipe 0 TrainedJob.exGlue 2 k) = .ok s ∧
    latest exReader "gs://b".toList (TrainJob.job (prog exStore (comp .optax exU exCod exCfg exInit TrainedJob.exPipe 0 TrainedJob.exGlue) TrainedJob.exTmp)
      (TrainedJob.exActs _ _)).fs = some x ∧ x.params = castAll exOps (some 1) s.params ∧ x.step = some ([], 5, 5) :=
  C133_inference exFine exPrepared 0 exTmp_ok exRun exReader_suits (TrainedJob.exActs _ _) (TrainedJob.exActs_ok _) 5 exLatest "gs://b".toList (fun _ => by decide)

example (l : TrainJob.Live (Train.State (Dict (Option Arr)) (Dict (Option Arr)) Unit) (Nat × Nat))
    (hl : (TrainJob.job (prog exStore (comp .optax exU exCod exCfg exInit TrainedJob.exPipe 0 TrainedJob.exGlue) TrainedJob.exTmp)
      (TrainedJob.exActs _ _ ++ [.attempt (TrainedJob.exAttempt _ _ true 2 none)])).live = some l) :
    ∃ k, l.m.step = 0 + k ∧ Train.Spec.run (Train.trainStep { exCfg with lr := fun _ => 77 }) exInit (batches TrainedJob.exPipe 0 TrainedJob.exGlue 2 k) = .ok l.m :=
  let ⟨k, h1, h2, _⟩ := C133_job exFine exPrepared 0 exTmp_ok (by decide) exRun _ (by
    intro a ha
    rcases List.mem_append.1 ha with ha | ha
    · exact TrainedJob.exActs_ok _ a ha
    · rw [List.mem_singleton] at ha
      cases ha
      exact ⟨TrainJob.demoCluster_good true, JobFiles.twice_writes, fun _ _ _ => rfl⟩) l hl
  ⟨k, h1, h2 _⟩

example (k : Nat) (s : Train.State (Dict (Option Arr)) (Dict (Option Arr)) Unit)
    (hs : Train.Spec.run (Train.trainStep exCfg) exInit (batches TrainedJob.exPipe 0 TrainedJob.exGlue 2 k) = .ok s) (g : Nat) :
    ∃ p' o', applyGradient exOps exAdd exT 3 s.params (s.step, s.opt) g = some (p', (s.step + 1, o')) :=
  let ⟨_, _, _, h⟩ := C133_run exPrepared 0 _ s hs
  let ⟨p', o', h1, _⟩ := h 3 g
  ⟨p', o', h1⟩

/-- It does run, and counts the steps in the state of the optimizer as well. -/
example : (TrainJob.job (prog exStore (comp .optax exU exCod exCfg exInit TrainedJob.exPipe 0 TrainedJob.exGlue) TrainedJob.exTmp)
    (TrainedJob.exActs _ _ ++ [.attempt (TrainedJob.exAttempt _ _ true 2 none)])).live.map (fun l => (l.m.step, arrayAt l.m.opt ["2".toList, "count".toList])) =
    some (6, some (some ([], 5, 6))) := by decide +kernel

end Examples

end Verif.OptaxJob
