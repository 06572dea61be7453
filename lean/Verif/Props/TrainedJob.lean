import Verif.Model.TrainedJob
import Verif.Props.JobFiles
import Verif.Props.TrainState
import Verif.Props.PackedTrain
/-
C126: jobs of the `Trainer` with the files of their train states.  Composes C125 (the job with files), C52 (state dicts of train states), C30 and C57 (the
trainer) and C118 (packed examples).
-/
namespace Verif.TrainedJob
open Verif Verif.StateDict Verif.TrainState Verif.SaveRestore
open Verif.SaveRestore.Spec (Like Clean SameKind Good)
open Verif.OptaxState (prune prune_sub)
open Verif.OptaxState.Spec (SameShape ProperDict arrayAt)
open Verif.TrainState.Spec (Template)
open Verif.JobFiles (Store Content prog decState)
open Verif.JobFiles.Spec (Fine Fits Stable Tmp Writes History)
open Verif.Ckpt (ckptName pathJoin latestStep)
open Verif.TsPath (Str)
open Verif.TrainJob.Spec (ideal GoodCluster CleanPreemption Holds)

variable {A T P O Mu σ B Row K G R : Type} [DecidableEq T] [Add K] [One K] [AddMonoid G]

/-! ### What is assumed -/

namespace Spec

/-- The same entries, shapes and dtypes. -/
def Alike (F : Ops A T) (x y : Dict (Option A)) : Prop := Like (fun _ x y => SameKind F x y ∧ x.map F.dtype = y.map F.dtype) [] x y

/-- The same for collections of mutables. -/
def AlikeM (F : Ops A T) (x y : Collections (Option A)) : Prop := List.Forall₂ (fun a b => a.1 = b.1 ∧ Alike F a.2 b.2) x y

/-- Nothing is lost in the layout. -/
structure GoodCodec (e : Codec A P O Mu) : Prop where
  params : ∀ p, e.decP (e.encP p) = some p
  opt : ∀ o, e.decO (e.encO o) = some o
  mutables : ∀ m, e.decM (e.encM m) = some m ∧ e.encM m ≠ []
  step : ∀ n, e.val (e.num n) = some n

/-- The checkpointer is made for the template `u`; initial state, optimizer and model keep its entries, shapes and dtypes. -/
structure Keeps (c : Store A T) (kind : Kind) (u : TState (Option A)) (e : Codec A P O Mu) (cfg : Train.Cfg K P G O Mu R Row) (init : Train.State P O Mu) :
    Prop where
  like : ∃ sd, stateDict kind u = some sd ∧ c.like_ = whole sd
  names : Clean u.params ∧ Clean u.paramStates
  step : ∃ a, u.step = some a ∧ ∀ n, c.O.shape (e.num n) = c.O.shape a ∧ c.O.dtype (e.num n) = c.O.dtype a
  init : Alike c.O (e.encP init.params) u.params ∧ Alike c.O (e.encO init.opt) u.paramStates ∧ AlikeM c.O (e.mutables init.mutables) u.mutables
  update : ∀ lr n p o g, Alike c.O (e.encP p) u.params → Alike c.O (e.encO o) u.paramStates →
    Alike c.O (e.encP (cfg.update lr n p o g).1) u.params ∧ Alike c.O (e.encO (cfg.update lr n p o g).2) u.paramStates
  mutables : ∀ p b r mu, AlikeM c.O (e.mutables mu) u.mutables → AlikeM c.O (e.mutables (cfg.lossGrad p b r mu).2.1) u.mutables

/-- The global batch of step `i` of a data set in `n` shards. -/
def batchAt (pipe : DsCkpt.Pipe σ B) (seed : Nat) (glue : (Nat → Option B) → Train.Batch Row) (n i : Nat) : Train.Batch Row :=
  glue fun s => if s < n then some (pipe.out (pipe.next^[i] (pipe.init seed s n))) else none

/-- The first `k` of them. -/
def batches (pipe : DsCkpt.Pipe σ B) (seed : Nat) (glue : (Nat → Option B) → Train.Batch Row) (n k : Nat) : List (Train.Batch Row) :=
  (List.range k).map (batchAt pipe seed glue n)

end Spec
open Spec

/-! ### Trees -/

theorem like_prefix {α β : Type} {R : α → β → Prop} (s : Dict α) : ∀ (t : Dict β) (p q : List Key), Like (fun _ => R) p s t → Like (fun _ => R) q s t := by
  induction s with
  | nil => intro t p q h; cases t <;> simp_all [Like]
  | leaf k a r ih =>
    intro t p q h
    cases t with
    | nil => exact h.elim
    | leaf k' b r' => exact ⟨h.1, h.2.1, ih _ _ _ h.2.2⟩
    | sub => exact h.elim
  | sub k d r ihd ih =>
    intro t p q h
    cases t with
    | nil => exact h.elim
    | leaf => exact h.elim
    | sub k' d' r' => exact ⟨h.1, ihd _ _ _ h.2.1, ih _ _ _ h.2.2⟩

theorem like_shape {α : Type} {R : List Key → α → α → Prop} (s : Dict α) : ∀ (t : Dict α) (p : List Key), Like R p s t → SameShape t s := by
  induction s with
  | nil => intro t p h; cases t <;> simp_all [Like, SameShape]
  | leaf k a r ih =>
    intro t p h
    cases t with
    | nil => exact h.elim
    | leaf k' b r' => exact ⟨h.1.symm, ih _ _ h.2.2⟩
    | sub => exact h.elim
  | sub k d r ihd ih =>
    intro t p h
    cases t with
    | nil => exact h.elim
    | leaf => exact h.elim
    | sub k' d' r' => exact ⟨h.1.symm, ihd _ _ h.2.1, ih _ _ h.2.2⟩

theorem like_proper {α β : Type} {R : List Key → α → β → Prop} (s : Dict α) : ∀ (t : Dict β) (p : List Key), Like R p s t → Clean t → ProperDict s := by
  induction s with
  | nil => intro t p _ _; trivial
  | leaf k a r ih =>
    intro t p h hc
    cases t with
    | nil => exact h.elim
    | leaf k' b r' =>
      obtain ⟨rfl, _, h2⟩ := h
      refine ⟨hc.1, ?_, ih _ _ h2 hc.2.2.2⟩
      rw [← JobFiles.like_keys' r _ _ h2]
      exact hc.2.2.1
    | sub => exact h.elim
  | sub k d r ihd ih =>
    intro t p h hc
    cases t with
    | nil => exact h.elim
    | leaf => exact h.elim
    | sub k' d' r' =>
      obtain ⟨rfl, h1, h2⟩ := h
      refine ⟨hc.1, ?_, Or.inr (ihd _ _ h1 hc.2.2.2.1), ih _ _ h2 hc.2.2.2.2⟩
      rw [← JobFiles.like_keys' r _ _ h2]
      exact hc.2.2.1

theorem like_prune {α β : Type} {R : α → β → Prop} (s : Dict α) : ∀ (t : Dict β) (p : List Key), Like (fun _ => R) p s t → Like (fun _ => R) p (prune s) (prune t) := by
  induction s with
  | nil => intro t p h; cases t <;> simp_all [Like, prune]
  | leaf k a r ih =>
    intro t p h
    cases t with
    | nil => exact h.elim
    | leaf k' b r' => exact ⟨h.1, h.2.1, ih _ _ h.2.2⟩
    | sub => exact h.elim
  | sub k d r ihd ih =>
    intro t p h
    cases t with
    | nil => exact h.elim
    | leaf => exact h.elim
    | sub k' d' r' =>
      obtain ⟨rfl, h1, h2⟩ := h
      have i1 := ihd _ _ h1
      have i2 := ih _ _ h2
      rcases prune_sub k d r with ⟨a1, a2⟩ | ⟨a1, a2⟩ <;> rcases prune_sub k d' r' with ⟨b1, b2⟩ | ⟨b1, b2⟩ <;> rw [a2, b2]
      · exact i2
      · rw [a1] at i1
        cases hd : prune d' with
        | nil => exact absurd hd b1
        | leaf => rw [hd] at i1; exact i1.elim
        | sub => rw [hd] at i1; exact i1.elim
      · rw [b1] at i1
        cases hd : prune d with
        | nil => exact absurd hd a1
        | leaf => rw [hd] at i1; exact i1.elim
        | sub => rw [hd] at i1; exact i1.elim
      · exact ⟨rfl, i1, i2⟩

theorem colls_like {F : Ops A T} {x y : Collections (Option A)} (h : AlikeM F x y) (p : List Key) :
    Like (fun _ x y => SameKind F x y ∧ x.map F.dtype = y.map F.dtype) p (ofColls x) (ofColls y) := by
  induction h with
  | nil => trivial
  | @cons a b x y h _ ih =>
    obtain ⟨ka, da⟩ := a
    obtain ⟨kb, db⟩ := b
    exact ⟨h.1, like_prefix _ _ _ _ h.2, ih⟩

theorem toColls_ofColls {α : Type} (x : Collections α) : toColls (ofColls x) = some x := by
  induction x with
  | nil => rfl
  | cons a x ih =>
    obtain ⟨k, d⟩ := a
    simp [ofColls, toColls, ih]

theorem parts_whole {α : Type} (sd : SDict α) : parts (whole sd) = some sd := by
  obtain ⟨t, s, m⟩ := sd
  cases m with
  | none => rfl
  | some m =>
    have e1 : (whole (⟨t, s, some m⟩ : SDict α)).get "target".toList = some (.dict t) := rfl
    have e2 : (whole (⟨t, s, some m⟩ : SDict α)).get "state".toList = some (.dict s) := rfl
    have e3 : (whole (⟨t, s, some m⟩ : SDict α)).get "flax_mutables".toList = some (.dict (ofColls m)) := rfl
    unfold parts
    rw [e1, e2, e3]
    simp [toColls_ofColls]

theorem stateDict_of {α : Type} (kind : Kind) (t : TState α) (ht : ProperDict t.paramStates) :
    stateDict kind t = some ⟨t.params, (match kind with | .plain => optState t.step t.paramStates | .optax => prune (optState t.step t.paramStates)),
      orNone t.mutables⟩ := by
  cases kind with
  | plain => rfl
  | optax =>
    have := optState_proper t.step _ ht
    simp only [stateDict, OptaxState.optaxStateDict, OptaxState.stateDict_eq _ this, Option.map_some]

theorem whole_like {F : Ops A T} (kind : Kind) (t u : TState (Option A)) (h1 : Alike F t.params u.params) (h2 : Alike F t.paramStates u.paramStates)
    (h3 : AlikeM F t.mutables u.mutables) (h4 : SameKind F t.step u.step ∧ t.step.map F.dtype = u.step.map F.dtype) (hu : Clean u.paramStates) :
    ∃ a b, stateDict kind t = some a ∧ stateDict kind u = some b ∧ Alike F (whole a) (whole b) := by
  have hut : ProperDict t.paramStates := like_proper _ _ _ h2 hu
  have huu : ProperDict u.paramStates := by
    refine like_proper (R := fun _ x y => x = y) _ u.paramStates [] ?_ hu
    generalize u.paramStates = d
    generalize ([] : List Key) = p
    induction d generalizing p with
    | nil => trivial
    | leaf k a r ih => exact ⟨rfl, rfl, ih _⟩
    | sub k d r ih1 ih2 => exact ⟨rfl, ih1 _, ih2 _⟩
  refine ⟨_, _, stateDict_of kind t hut, stateDict_of kind u huu, rfl, like_prefix _ _ _ _ h1, rfl, ?_, ?_⟩
  · have ho : Like (fun _ x y => SameKind F x y ∧ x.map F.dtype = y.map F.dtype) ([] ++ ["state".toList]) (optState t.step t.paramStates)
        (optState u.step u.paramStates) := ⟨rfl, h4, rfl, like_prefix _ _ _ _ h2, trivial⟩
    cases kind with
    | plain => exact ho
    | optax => exact like_prune _ _ _ ho
  · have := colls_like h3 ([] ++ ["flax_mutables".toList])
    generalize t.mutables = x at *
    generalize u.mutables = y at *
    cases h3 with
    | nil => trivial
    | cons a b => exact ⟨rfl, this, trivial⟩

/-! ### The trainer keeps the structure -/

theorem microLoop_keeps (I : Option Mu → Prop) (split : R → R × R) (f : Train.LossGrad K P G Mu R Row) (hf : ∀ p b r mu, I mu → I (f p b r mu).2.1)
    (params : P) (batch : Train.Batch Row) (size : Nat) (n : Nat) : ∀ (i : Nat) (rng : R) (s a : Train.Accum K G Mu), I s.mutables →
    Train.microLoop split f params batch size n i rng s = .ok a → I a.mutables := by
  induction n with
  | zero => intro i rng s a hs h; cases h; exact hs
  | succ n ih =>
    intro i rng s a hs h
    simp only [Train.microLoop] at h
    split at h
    · cases h
    · rename_i rng' s' hstep
      refine ih _ _ _ _ ?_ h
      simp only [Train.microStep] at hstep
      split at hstep
      · cases hstep
      · split at hstep
        · cases hstep; exact hf _ _ _ _ hs
        · split at hstep
          · cases hstep; exact hf _ _ _ _ hs
          · cases hstep

theorem accumulate_keeps (I : Option Mu → Prop) (split : R → R × R) (f : Train.LossGrad K P G Mu R Row) (hf : ∀ p b r mu, I mu → I (f p b r mu).2.1)
    (params : P) (mu : Option Mu) (batch : Train.Batch Row) (rng : R) (n : Option Nat) (a : Train.Accum K G Mu) (hmu : I mu)
    (h : Train.accumulate split f params mu batch rng n = .ok a) : I a.mutables := by
  unfold Train.accumulate at h
  split at h
  · cases h
  · split at h
    · cases h; exact hf _ _ _ _ hmu
    · split at h
      · cases h; exact hf _ _ _ _ hmu
      · split at h
        · cases h
        · exact microLoop_keeps I split f hf params _ _ _ _ _ _ _ hmu h

/-- What a train state of the job looks like. -/
def Inv (c : Store A T) (u : TState (Option A)) (e : Codec A P O Mu) (m : Train.State P O Mu) : Prop :=
  Alike c.O (e.encP m.params) u.params ∧ Alike c.O (e.encO m.opt) u.paramStates ∧ AlikeM c.O (e.mutables m.mutables) u.mutables

section
variable {c : Store A T} {kind : Kind} {u : TState (Option A)} {e : Codec A P O Mu} {cfg : Train.Cfg K P G O Mu R Row} {init : Train.State P O Mu}
  {pipe : DsCkpt.Pipe σ B} {seed : Nat} {glue : (Nat → Option B) → Train.Batch Row}

theorem inv_step (hk : Keeps c kind u e cfg init) (m : Train.State P O Mu) (hm : Inv c u e m) (b : Nat → Option B) :
    Inv c u e ((comp kind u e cfg init pipe seed glue).step m b) := by
  show Inv c u e (match Train.trainStep cfg m (glue b) with
    | .ok (s, _) => s
    | .error _ => { m with step := m.step + 1 })
  cases ht : Train.trainStep cfg m (glue b) with
  | error => exact hm
  | ok r =>
    obtain ⟨s, ms⟩ := r
    unfold Train.trainStep at ht
    split at ht
    · cases ht
    · rename_i a ha
      cases ht
      have h3 := accumulate_keeps (fun mu => AlikeM c.O (e.mutables mu) u.mutables) cfg.split cfg.lossGrad hk.mutables _ _ _ _ _ _ hm.2.2 ha
      obtain ⟨h1, h2⟩ := hk.update (cfg.lr m.step) m.step m.params m.opt a.grad hm.1 hm.2.1
      exact ⟨h1, h2, h3⟩

theorem inv_fold (hk : Keeps c kind u e cfg init) (bs : List (Nat → Option B)) :
    Inv c u e (bs.foldl (comp kind u e cfg init pipe seed glue).step init) := by
  suffices h : ∀ m, Inv c u e m → Inv c u e (bs.foldl (comp kind u e cfg init pipe seed glue).step m) from h _ hk.init
  induction bs with
  | nil => intro m h; exact h
  | cons b bs ih => intro m h; exact ih _ (inv_step hk m h b)

theorem inv_dict (hk : Keeps c kind u e cfg init) (m : Train.State P O Mu) (hm : Inv c u e m) :
    ∃ sd, stateDict kind (e.state u m) = some sd ∧ Fits c (whole sd) := by
  obtain ⟨a, ha, hn⟩ := hk.step
  obtain ⟨x, y, h1, h2, h3⟩ := whole_like (F := c.O) kind (e.state u m) u hm.1 hm.2.1 hm.2.2
    (by rw [ha]; exact ⟨by simp [Codec.state, SameKind, (hn m.step).1], by simp [Codec.state, (hn m.step).2]⟩) hk.names.2
  obtain ⟨sd, h4, h5⟩ := hk.like
  refine ⟨x, h1, ?_⟩
  unfold Fits
  rw [h4] at h2
  cases h2
  rw [h5]
  exact h3

theorem read_state (he : GoodCodec e) (m : Train.State P O Mu) : e.read (e.state u m) = some m := by
  obtain ⟨n, p, o, mu⟩ := m
  cases mu with
  | none => simp [Codec.read, Codec.state, Codec.mutables, he.step, he.params, he.opt]
  | some mu =>
    obtain ⟨h1, h2⟩ := he.mutables mu
    simp [Codec.read, Codec.state, Codec.mutables, he.step, he.params, he.opt, h1, h2]

theorem back_of (hk : Keeps c kind u e cfg init) (he : GoodCodec e) (m : Train.State P O Mu) (hm : Inv c u e m) :
    (comp kind u e cfg init pipe seed glue).ofDict ((comp kind u e cfg init pipe seed glue).toDict m) = some m := by
  obtain ⟨sd, h1, h2⟩ := C52_round_trip kind (e.state u m) u ⟨like_shape _ _ _ hm.1, like_proper _ _ _ hm.1 hk.names.1⟩
    ⟨like_shape _ _ _ hm.2.1, like_proper _ _ _ hm.2.1 hk.names.2⟩
  simp only [comp, h1, parts_whole, h2]
  exact read_state he m

/-- **C126** (the train state).  The trainer's states keep the entries, shapes and dtypes of the template, and can be restored from their state dicts: the
results about jobs with files apply. -/
theorem C126_stable (hk : Keeps c kind u e cfg init) (he : GoodCodec e) : Stable c (comp kind u e cfg init pipe seed glue) where
  fits bs := by
    obtain ⟨sd, h1, h2⟩ := inv_dict hk _ (inv_fold (pipe := pipe) (seed := seed) (glue := glue) hk bs)
    show Fits c (match stateDict kind (e.state u (bs.foldl (comp kind u e cfg init pipe seed glue).step init)) with
      | some sd => whole sd
      | none => .nil)
    rw [h1]
    exact h2
  count m b := by
    show (match Train.trainStep cfg m (glue b) with
      | .ok (s, _) => s
      | .error _ => { m with step := m.step + 1 }).step = _
    cases ht : Train.trainStep cfg m (glue b) with
    | error => rfl
    | ok r =>
      unfold Train.trainStep at ht
      split at ht
      · cases ht
      · cases ht; rfl
  back bs := back_of hk he _ (inv_fold hk bs)

/-! ### The job is the trainer's run -/

theorem run_foldl (s s' : Train.State P O Mu) (bs : List (Nat → Option B)) (h : Train.Spec.run (Train.trainStep cfg) s (bs.map glue) = .ok s') :
    bs.foldl (comp kind u e cfg init pipe seed glue).step s = s' := by
  induction bs generalizing s with
  | nil => cases h; rfl
  | cons b bs ih =>
    simp only [List.map_cons, Train.Spec.run] at h
    split at h
    · cases h
    · rename_i s1 u1 hs
      have e1 : (comp kind u e cfg init pipe seed glue).step s b = s1 := by
        show (match Train.trainStep cfg s (glue b) with
          | .ok (s, _) => s
          | .error _ => { s with step := s.step + 1 }) = s1
        rw [hs]
      rw [List.foldl_cons, e1]
      exact ih s1 h

theorem ideal_run (tmp : Str) (n k : Nat) (s : Train.State P O Mu) (h : Train.Spec.run (Train.trainStep cfg) init (batches pipe seed glue n k) = .ok s) :
    ideal (prog c (comp kind u e cfg init pipe seed glue) tmp) n k = s := by
  rw [JobFiles.ideal_foldl]
  apply run_foldl
  rw [List.map_map]
  exact h

variable {α : Type} [LinearOrder α] [BoundedOrder α]

/-- **C126** (the job).  A job of the `Trainer` is started any number of times and killed at any moment, also while it writes a file.  If the trainer raises no
error on the data set, the train state of the processes is the one that `Trainer` computes from the initial state with the first `k` batches of the data set
in this order, where `k` is the number of steps it counts; and the process that reads shard `s` will be fed the batches of that shard from number `k` on. -/
theorem C126_job (hc : Fine c) (hk : Keeps c kind u e cfg init) (he : GoodCodec e) {tmp : Str} (ht : Tmp c tmp) {n : Nat} (hn : 0 < n)
    (hrun : ∀ k, ∃ s, Train.Spec.run (Train.trainStep cfg) init (batches pipe seed glue n k) = .ok s)
    (acts : List (TrainJob.Act (Train.State P O Mu) σ (Content A T σ) α)) (h : History n acts) (l : TrainJob.Live (Train.State P O Mu) σ)
    (hl : (TrainJob.job (prog c (comp kind u e cfg init pipe seed glue) tmp) acts).live = some l) :
    ∃ k, l.m.step = init.step + k ∧ Train.Spec.run (Train.trainStep cfg) init (batches pipe seed glue n k) = .ok l.m ∧ l.hosts ≠ [] ∧
      ∀ x ∈ l.hosts, ∀ j, DsCkpt.batchAt pipe j x = some (pipe.out (pipe.next^[k + j] (pipe.init seed x.layout.shardId n))) := by
  obtain ⟨k, h1, h2, h3, h4⟩ := JobFiles.C125_job hc (C126_stable (pipe := pipe) (seed := seed) (glue := glue) hk he) ht hn acts h l hl
  obtain ⟨s, hs⟩ := hrun k
  refine ⟨k, h2, ?_, h3, h4⟩
  rw [hs, h1, ideal_run tmp n k s hs]

/-- **C126** (checkpoints).  The files of the latest checkpoint are read as the state dict of the train state that `Trainer` computes with the first `k` batches;
an `InferenceState` restored from it has the parameters, the mutables and the step of that state. -/
theorem C126_latest (hc : Fine c) (hk : Keeps c kind u e cfg init) (he : GoodCodec e) {tmp : Str} (ht : Tmp c tmp) {n : Nat}
    (hrun : ∀ k, ∃ s, Train.Spec.run (Train.trainStep cfg) init (batches pipe seed glue n k) = .ok s)
    (acts : List (TrainJob.Act (Train.State P O Mu) σ (Content A T σ) α)) (h : History n acts) (N : Nat)
    (hs : latestStep (TrainJob.job (prog c (comp kind u e cfg init pipe seed glue) tmp) acts).fs = some N) :
    ∃ k s d sd, N = init.step + k ∧ Train.Spec.run (Train.trainStep cfg) init (batches pipe seed glue n k) = .ok s ∧
      PyDict.get (TrainJob.job (prog c (comp kind u e cfg init pipe seed glue) tmp) acts).fs (ckptName N) = some d ∧
      decState c (pathJoin c.dir (ckptName N)) d = some (whole sd) ∧ stateDict kind (e.state u s) = some sd ∧
      ∀ v : IState (Option A), iRestore v sd = .ok ⟨some (e.num N), e.encP s.params, v.paramsAxes, e.mutables s.mutables, v.mutablesAxes⟩ := by
  obtain ⟨k, d, h1, h2, h3⟩ := JobFiles.C125_latest hc (C126_stable (pipe := pipe) (seed := seed) (glue := glue) hk he) ht acts h N hs
  obtain ⟨s, hr⟩ := hrun k
  have hid := ideal_run (c := c) (kind := kind) (u := u) (e := e) tmp n k s hr
  have hinv : Inv c u e s := by
    rw [← hid, JobFiles.ideal_foldl]
    exact inv_fold hk _
  have hstep : s.step = N := by
    have := TrainJob.ideal_step (JobFiles.good_prog hc (C126_stable (pipe := pipe) (seed := seed) (glue := glue) hk he) ht) n k
    rw [hid] at this
    exact this.trans h1.symm
  obtain ⟨-, sd, e1, e2⟩ := C52_inference kind (e.state u s) ⟨none, .nil, none, [], none⟩ ⟨none, .nil, none, [], none⟩
    (like_proper _ _ _ hinv.2.1 hk.names.2)
  refine ⟨k, s, d, sd, h1, hr, h2, ?_, e1, fun v => ?_⟩
  · rw [h3, hid]
    simp only [comp, e1]
  · obtain ⟨-, sd', e1', e2'⟩ := C52_inference kind (e.state u s) v v (like_proper _ _ _ hinv.2.1 hk.names.2)
    rw [e1] at e1'
    cases e1'
    rw [e2', ← hstep]
    rfl

end

/-! ### Packed examples -/

section
open Verif.Masks Verif.Transformer Verif.Transformer.Spec Verif.PackedLoss Verif.PackedLoss.Spec Verif.MicroLoss Verif.MicroLoss.Spec Verif.PackedTrain
  Verif.PackedTrain.Spec

variable {E O R σ σ' B B' : Type} [NormedAddCommGroup E] [NormedSpace ℝ E] {d h e f V : Nat} {ex : ℝ → ℝ} {lg : ℕ → ℝ} {θ Bd : ℝ}
  {α : Type} [LinearOrder α] [BoundedOrder α] {α' : Type} [LinearOrder α'] [BoundedOrder α'] {A A' T T' : Type} [DecidableEq T] [DecidableEq T']

theorem packed_runs (hex : Underflows ex θ) (hθ : 0 < θ) (nets : E → Transformer.Net d h e f V) (tr : Train.Cfg ℝ E (E →L[ℝ] ℝ) O Unit R Cells)
    (weighted : Bool) (lnf : LossWeights.LNF ℝ) (hsafe : PackingSafe weighted lnf) (hconst : lnf = .none ∨ ∃ x, lnf = .const x) (smoothing z : ℝ)
    {n m n' m' : Nat} (groups : Nat → List (List Example)) (hwf : ∀ i, ∀ g ∈ groups i, ∀ x ∈ g, x.WF ∧ x.HasText)
    (hfit : ∀ i, ∀ g ∈ groups i, PackedLoss.Spec.Fits n m g) (hfit' : ∀ i, ∀ g ∈ groups i, ∀ x ∈ g, PackedLoss.Spec.Fits n' m' [x]) (k k' : Nat)
    (hk : ∀ i, k ∣ (groups i).length) (hk' : ∀ i, k' ∣ (groups i).flatten.length) (init : Train.State E O Unit) (hmu : init.mutables = none)
    -- the two data sets
    {pipe : DsCkpt.Pipe σ B} {seed : Nat} {glue : (Nat → Option B) → Train.Batch Cells} {S : Nat}
    {pipe' : DsCkpt.Pipe σ' B'} {seed' : Nat} {glue' : (Nat → Option B') → Train.Batch Cells} {S' : Nat}
    (h1 : ∀ i, Carries (batchAt pipe seed glue S i) (packedBatch n m weighted (groups i)))
    (h2 : ∀ i, Carries (batchAt pipe' seed' glue' S' i) (paddedBatch n' m' weighted (groups i).flatten))
    (ht : ∀ j s', Train.Spec.run (Train.trainStep { tr with lossGrad := lossGrad (encDec ex lg nets lnf smoothing z n' m'), microbatches := some k' }) init
        (batches pipe' seed' glue' S' j) = .ok s' →
      (∀ᶠ q in nhds s'.params, Tame (nets q) θ Bd) ∧ (∃ Y, Smooth (encDec ex lg nets lnf smoothing z n m) Y (batchAt pipe seed glue S j) s'.params) ∧
        ∃ Y, Smooth (encDec ex lg nets lnf smoothing z n' m') Y (batchAt pipe' seed' glue' S' j) s'.params) :
    ∀ N, ∃ s', Train.Spec.run (Train.trainStep { tr with lossGrad := lossGrad (encDec ex lg nets lnf smoothing z n m), microbatches := some k }) init
      (batches pipe seed glue S N) = .ok s' ∧
      Train.Spec.run (Train.trainStep { tr with lossGrad := lossGrad (encDec ex lg nets lnf smoothing z n' m'), microbatches := some k' }) init
        (batches pipe' seed' glue' S' N) = .ok s' := by
  intro N
  refine C118_microbatches hex hθ nets tr weighted lnf hsafe hconst smoothing z ((List.range N).map groups) ?_ ?_ ?_ _ _ ?_ ?_ k k' ?_ ?_ init hmu (B := Bd) ?_
  · intro g hg; obtain ⟨i, -, rfl⟩ := List.mem_map.1 hg; exact hwf i
  · intro g hg; obtain ⟨i, -, rfl⟩ := List.mem_map.1 hg; exact hfit i
  · intro g hg; obtain ⟨i, -, rfl⟩ := List.mem_map.1 hg; exact hfit' i
  · unfold batches
    rw [List.forall₂_map_left_iff, List.forall₂_map_right_iff, List.forall₂_same]
    exact fun i _ => h1 i
  · unfold batches
    rw [List.forall₂_map_left_iff, List.forall₂_map_right_iff, List.forall₂_same]
    exact fun i _ => h2 i
  · intro g hg; obtain ⟨i, -, rfl⟩ := List.mem_map.1 hg; exact hk i
  · intro g hg; obtain ⟨i, -, rfl⟩ := List.mem_map.1 hg; exact hk' i
  · intro j s' b b' hr hb hb'
    unfold batches at hb hb'
    obtain ⟨x, hx, rfl⟩ := List.getElem?_map .. ▸ hb |> Option.map_eq_some_iff.1
    obtain ⟨y, hy, rfl⟩ := List.getElem?_map .. ▸ hb' |> Option.map_eq_some_iff.1
    obtain ⟨hj, rfl⟩ := List.getElem?_eq_some_iff.1 hx
    obtain ⟨_, rfl⟩ := List.getElem?_eq_some_iff.1 hy
    rw [List.length_range] at hj
    rw [List.getElem_range]
    refine ht j s' ?_
    rw [← hr]
    unfold batches
    rw [← List.map_take, List.take_range, min_eq_left hj.le]

/-- **C126** (packed examples).  One job trains an encoder-decoder model on packed examples, the other one trains it on the same examples, one per row; they run on
different clusters with different storage, schedules and numbers of microbatches, and are killed and restarted at different moments.  Whenever they have
trained the same number of steps they have the same train state. -/
theorem C126_packed (hex : Underflows ex θ) (hθ : 0 < θ) (nets : E → Transformer.Net d h e f V) (tr : Train.Cfg ℝ E (E →L[ℝ] ℝ) O Unit R Cells)
    (weighted : Bool) (lnf : LossWeights.LNF ℝ) (hsafe : PackingSafe weighted lnf) (hconst : lnf = .none ∨ ∃ x, lnf = .const x) (smoothing z : ℝ)
    {n m n' m' : Nat} (groups : Nat → List (List Example)) (hwf : ∀ i, ∀ g ∈ groups i, ∀ x ∈ g, x.WF ∧ x.HasText)
    (hfit : ∀ i, ∀ g ∈ groups i, PackedLoss.Spec.Fits n m g) (hfit' : ∀ i, ∀ g ∈ groups i, ∀ x ∈ g, PackedLoss.Spec.Fits n' m' [x]) (k k' : Nat)
    (hk : ∀ i, k ∣ (groups i).length) (hk' : ∀ i, k' ∣ (groups i).flatten.length) (init : Train.State E O Unit) (hmu : init.mutables = none)
    -- the two data sets
    {pipe : DsCkpt.Pipe σ B} {seed : Nat} {glue : (Nat → Option B) → Train.Batch Cells} {S : Nat} (hS : 0 < S)
    {pipe' : DsCkpt.Pipe σ' B'} {seed' : Nat} {glue' : (Nat → Option B') → Train.Batch Cells} {S' : Nat} (hS' : 0 < S')
    (h1 : ∀ i, Carries (batchAt pipe seed glue S i) (packedBatch n m weighted (groups i)))
    (h2 : ∀ i, Carries (batchAt pipe' seed' glue' S' i) (paddedBatch n' m' weighted (groups i).flatten))
    (ht : ∀ j s', Train.Spec.run (Train.trainStep { tr with lossGrad := lossGrad (encDec ex lg nets lnf smoothing z n' m'), microbatches := some k' }) init
        (batches pipe' seed' glue' S' j) = .ok s' →
      (∀ᶠ q in nhds s'.params, Tame (nets q) θ Bd) ∧ (∃ Y, Smooth (encDec ex lg nets lnf smoothing z n m) Y (batchAt pipe seed glue S j) s'.params) ∧
        ∃ Y, Smooth (encDec ex lg nets lnf smoothing z n' m') Y (batchAt pipe' seed' glue' S' j) s'.params)
    -- the two jobs
    {c : Store A T} {kind : Kind} {u : TState (Option A)} {cod : Codec A E O Unit} {tmp : Str} (hc : Fine c) (he : GoodCodec cod) (htmp : Tmp c tmp)
    (hkeep : Keeps c kind u cod { tr with lossGrad := lossGrad (encDec ex lg nets lnf smoothing z n m), microbatches := some k } init)
    {c' : Store A' T'} {kind' : Kind} {u' : TState (Option A')} {cod' : Codec A' E O Unit} {tmp' : Str} (hc' : Fine c') (he' : GoodCodec cod') (htmp' : Tmp c' tmp')
    (hkeep' : Keeps c' kind' u' cod' { tr with lossGrad := lossGrad (encDec ex lg nets lnf smoothing z n' m'), microbatches := some k' } init)
    (acts : List (TrainJob.Act (Train.State E O Unit) σ (Content A T σ) α)) (hacts : History S acts)
    (acts' : List (TrainJob.Act (Train.State E O Unit) σ' (Content A' T' σ') α')) (hacts' : History S' acts')
    (l : TrainJob.Live (Train.State E O Unit) σ) (l' : TrainJob.Live (Train.State E O Unit) σ')
    (hl : (TrainJob.job (prog c (comp kind u cod { tr with lossGrad := lossGrad (encDec ex lg nets lnf smoothing z n m), microbatches := some k } init
      pipe seed glue) tmp) acts).live = some l)
    (hl' : (TrainJob.job (prog c' (comp kind' u' cod' { tr with lossGrad := lossGrad (encDec ex lg nets lnf smoothing z n' m'), microbatches := some k' } init
      pipe' seed' glue') tmp') acts').live = some l')
    (hstep : l.m.step = l'.m.step) : l.m = l'.m := by
  have key : ∀ N, ∃ s', Train.Spec.run (Train.trainStep { tr with lossGrad := lossGrad (encDec ex lg nets lnf smoothing z n m), microbatches := some k }) init
      (batches pipe seed glue S N) = .ok s' ∧
      Train.Spec.run (Train.trainStep { tr with lossGrad := lossGrad (encDec ex lg nets lnf smoothing z n' m'), microbatches := some k' }) init
        (batches pipe' seed' glue' S' N) = .ok s' := 
    packed_runs hex hθ nets tr weighted lnf hsafe hconst smoothing z groups hwf hfit hfit' k k' hk hk' init hmu h1 h2 ht
  obtain ⟨q, a1, a2, -⟩ := C126_job (pipe := pipe) (seed := seed) (glue := glue) hc hkeep he htmp hS (fun N => (key N).imp fun _ h => h.1) acts hacts l hl
  obtain ⟨q', b1, b2, -⟩ := C126_job (pipe := pipe') (seed := seed') (glue := glue') hc' hkeep' he' htmp' hS' (fun N => (key N).imp fun _ h => h.2) acts' hacts' l' hl'
  have hq : q = q' := by omega
  subst hq
  obtain ⟨s', c1, c2⟩ := key q
  rw [c1] at a2
  rw [c2] at b2
  exact (Except.ok.inj a2).symm.trans (Except.ok.inj b2)

end

/-! ### The hypotheses are met -/

section

/-- Arrays of one number: shape, dtype, content. -/
abbrev Arr (P M : Type) := List Nat × Nat × (P ⊕ Nat ⊕ M)

def arrOps (P M : Type) : Ops (Arr P M) Nat := ⟨fun a => a.2.1, fun a => a.1, fun t a => (a.1, t, a.2.2), 2, 3⟩

/-- A parameter, its momentum, and optionally a cache. -/
def exCod (P M : Type) : Codec (Arr P M) P Nat M where
  encP p := .leaf "w".toList (some ([4, 2], 0, .inl p)) .nil
  decP
    | .leaf _ (some (_, _, .inl p)) .nil => some p
    | _ => none
  encO o := .sub "w".toList (.leaf "m".toList (some ([4], 1, .inr (.inl o))) .nil) .nil
  decO
    | .sub _ (.leaf _ (some (_, _, .inr (.inl o))) .nil) .nil => some o
    | _ => none
  encM mu := [("cache".toList, .leaf "i".toList (some ([], 5, .inr (.inr mu))) .nil)]
  decM
    | [(_, .leaf _ (some (_, _, .inr (.inr mu))) .nil)] => some mu
    | _ => none
  num n := ([], 5, .inr (.inl n))
  val a := match a.2.2 with
    | .inr (.inl n) => some n
    | _ => none

theorem exCod_good (P M : Type) : GoodCodec (exCod P M) := ⟨fun _ => rfl, fun _ => rfl, fun _ => ⟨rfl, by simp [exCod]⟩, fun _ => rfl⟩

/-- The template, with or without a cache. -/
def exU {P M : Type} (p : P) (mu : Option M) : TState (Option (Arr P M)) :=
  ⟨(exCod P M).encP p, some ((exCod P M).num 0), (exCod P M).encO 0, none, (exCod P M).mutables mu, none⟩

/-- Parameters are saved as float32; the step is not partitioned. -/
def exSt {P M : Type} (p : P) (mu : Option M) (dir : Str) : Store (Arr P M) Nat where
  O := arrOps P M
  dtype := some 0
  onDevices := true
  dir := dir
  axes p := p.getLast? ≠ some "step".toList
  like_ := whole ⟨(exU p mu).params, optState (exU p mu).step (exU p mu).paramStates, orNone (exU p mu).mutables⟩
  fns := []

theorem exSt_fine {P M : Type} (p : P) (mu : Option M) (dir : Str) (hd : ∀ n, TsPath.Spec.Dir (pathJoin dir (ckptName n))) : Fine (exSt p mu dir) where
  ops := ⟨fun _ _ => rfl, fun _ _ => rfl, fun _ => rfl⟩
  keys := by
    cases mu <;> simp only [exSt, exU, exCod, Codec.mutables, whole, optState, orNone, Option.map_none, Option.map_some, Option.getD_none, Option.getD_some,
      List.isEmpty_nil, List.isEmpty_cons, if_true, Bool.false_eq_true, if_false, ofColls, SaveRestore.Spec.Clean]
    all_goals repeat' (first | exact trivial | refine And.intro ?_ ?_ | decide | simp [Dict.keys])
  nested := by
    cases mu <;> simp [exSt, exU, exCod, Codec.mutables, whole, orNone, ofColls, JobFiles.Spec.Nested]
  dir := hd
  leaves := by
    cases mu <;> simp only [exSt, exU, exCod, Codec.mutables, whole, optState, orNone, Option.map_none, Option.map_some, Option.getD_none, Option.getD_some,
      List.isEmpty_nil, List.isEmpty_cons, if_true, Bool.false_eq_true, if_false, ofColls, SaveRestore.Spec.Every]
    all_goals repeat' (first | exact trivial | refine And.intro ?_ ?_)
    all_goals
      intro a ha
      cases ha
      refine ⟨fun _ => by simp [arrOps], ?_⟩
      first
      | exact fun _ t ht => by cases ht; rfl
      | exact fun h => absurd h (by decide)
  unpartitioned h := by cases h
  target _ := by simp [exSt, whole, Dict.keys]
  fns f h := by cases h

/-- Any trainer that keeps the presence of the cache. -/
theorem exSt_keeps {P M : Type} (p : P) (mu : Option M) (dir : Str) (cfg : Train.Cfg K P G Nat M R Row) (init : Train.State P Nat M)
    (h0 : init.mutables.isSome = mu.isSome) (h1 : ∀ p b r m, m.isSome = mu.isSome → (cfg.lossGrad p b r m).2.1.isSome = mu.isSome) :
    Keeps (exSt p mu dir) .plain (exU p mu) (exCod P M) cfg init := by
  have hM : ∀ m : Option M, AlikeM (exSt p mu dir).O ((exCod P M).mutables m) (exU p mu).mutables ↔ m.isSome = mu.isSome := by
    intro m
    cases m <;> cases mu <;> simp [AlikeM, Alike, exU, exCod, Codec.mutables, Like, SameKind, exSt, arrOps]
  have hP : ∀ q, Alike (exSt p mu dir).O ((exCod P M).encP q) (exU p mu).params := by
    intro q; simp [Alike, exU, exCod, Like, SameKind, exSt, arrOps]
  have hO : ∀ o, Alike (exSt p mu dir).O ((exCod P M).encO o) (exU p mu).paramStates := by
    intro q; simp [Alike, exU, exCod, Like, SameKind, exSt, arrOps]
  refine ⟨⟨_, rfl, rfl⟩, ?_, ⟨_, rfl, fun n => ⟨rfl, rfl⟩⟩, ⟨hP _, hO _, (hM _).2 h0⟩, fun _ _ _ _ _ _ _ => ⟨hP _, hO _⟩, fun q b r m h => (hM _).2 (h1 q b r m ((hM _).1 h))⟩
  simp only [exU, exCod, SaveRestore.Spec.Clean]
  repeat' (first | exact trivial | refine And.intro ?_ ?_ | decide | simp [Dict.keys])

/-- A trainer with two microbatches, momentum and a counter of the microbatches. -/
def exCfg : Train.Cfg Nat Nat Nat Nat Nat Unit Nat where
  lossGrad p b _ mu := ([("loss".toList, .avgStep p 1)], mu.map (· + 1), (b.map fun x => x.2.sum).sum)
  update lr _ p o g := (p * 10 + lr * g + o, o + g)
  lr n := n + 1
  foldIn r _ := r
  split r := (r, r)
  baseRng := ()
  microbatches := some 2
  weightMetrics _ _ _ := []

def exPipe : DsCkpt.Pipe (Nat × Nat) Nat := ⟨fun _ s _ => (s, 0), fun x => x.2 % 4 * 2 + x.1, fun x => (x.1, x.2 + 1)⟩

/-- A row from each shard. -/
def exGlue (b : Nat → Option Nat) : Train.Batch Nat := [("x".toList, [(b 0).getD 9, (b 1).getD 9])]

def exInit : Train.State Nat Nat Nat := ⟨0, 1, 0, some 0⟩

def exAttempt (S C : Type) (big : Bool) (period : Nat) (kill : Option (Nat × Nat)) : TrainJob.Attempt S (Nat × Nat) C Bool where
  cluster := TrainJob.demoCluster big
  cfg := { totalSteps := 6, checkpointPeriod := period }
  pol := .newest (some 1)
  keepDs := some 1
  stamp := fun s => s + 100
  plan := TrainJob.twice
  kill := kill

/-- Killed while it writes the checkpoint of step 4; then, on another cluster, after the one of step 5. -/
def exActs (S C : Type) : List (TrainJob.Act S (Nat × Nat) C Bool) :=
  [.attempt (exAttempt S C true 2 (some (4, 3))), .attempt (exAttempt S C false 3 (some (3, 1)))]

theorem exActs_ok (S : Type) {A T : Type} : History 2 (exActs S (Content A T (Nat × Nat))) := by
  intro a ha
  simp only [exActs, List.mem_cons, List.not_mem_nil, or_false, TrainJob.Act.attempt.injEq] at ha
  rcases ha with rfl | rfl
  · exact ⟨TrainJob.demoCluster_good true, JobFiles.twice_writes, fun _ _ _ => rfl⟩
  · exact ⟨TrainJob.demoCluster_good false, JobFiles.twice_writes, fun _ _ _ => rfl⟩

theorem exDir : ∀ n, TsPath.Spec.Dir (pathJoin "/m".toList (ckptName n)) := fun n h => by
  have : TsPath.gsPrefix.isPrefixOf (pathJoin "/m".toList (ckptName n)) = false := rfl
  rw [this] at h
  cases h

theorem exRun : ∀ k, ∃ s, Train.Spec.run (Train.trainStep exCfg) exInit (batches exPipe 0 exGlue 2 k) = .ok s := by
  have : ∀ (bs : List (Nat → Option Nat)) (s : Train.State Nat Nat Nat), ∃ s', Train.Spec.run (Train.trainStep exCfg) s (bs.map exGlue) = .ok s' := by
    intro bs
    induction bs with
    | nil => exact fun s => ⟨s, rfl⟩
    | cons b bs ih =>
      intro s
      obtain ⟨s1, v, h⟩ : ∃ s1 v, Train.trainStep exCfg s (exGlue b) = .ok (s1, v) := by
        simp [Train.trainStep, Train.accumulate, exGlue, exCfg, Train.microLoop, Train.microStep, Train.getMicrobatch, Train.dynamicSlice]
        rw [show Metrics.mergeDict [(['l', 'o', 's', 's'], Metrics.Metric.avgStep s.params 1)] [(['l', 'o', 's', 's'], Metrics.Metric.avgStep s.params 1)] =
          .ok [(['l', 'o', 's', 's'], Metrics.Metric.avgStep (s.params + s.params) (1 + 1))] from rfl]
        exact ⟨_, _, rfl⟩
      obtain ⟨s', h'⟩ := ih s1
      refine ⟨s', ?_⟩
      rw [List.map_cons]
      simp only [Train.Spec.run, h]
      exact h'
  intro k
  have h := this ((List.range k).map fun i s => if s < 2 then some (exPipe.out (exPipe.next^[i] (exPipe.init 0 s 2))) else none) exInit
  rw [List.map_map] at h
  exact h

def exTmp : Str := "/m/checkpoint_4.tmp-104".toList

theorem exTmp_ok {P M : Type} (p : P) (mu : Option M) : Tmp (exSt p mu "/m".toList) exTmp :=
  ⟨fun h => absurd h (by decide), show TsPath.gsPrefix.isPrefixOf "/m".toList = TsPath.gsPrefix.isPrefixOf exTmp by decide⟩

abbrev exProg := prog (exSt 0 (some 0) "/m".toList) (comp .plain (exU 0 (some 0)) (exCod Nat Nat) exCfg exInit exPipe 0 exGlue) exTmp

/-- The job is not trivial. -/
example : (((exActs _ _).inits.map (TrainJob.job exProg)).map fun w => (w.live.map fun l => l.m, latestStep w.fs)) =
    [(none, none), (some ⟨4, 12497, 28, some 8⟩, some 2), (some ⟨6, 1250089, 34, some 12⟩, some 5)] := by
  decide +kernel

example (l : TrainJob.Live (Train.State Nat Nat Nat) (Nat × Nat)) (hl : (TrainJob.job exProg (exActs _ _)).live = some l) :
    ∃ k, l.m.step = 0 + k ∧ Train.Spec.run (Train.trainStep exCfg) exInit (batches exPipe 0 exGlue 2 k) = .ok l.m :=
  let ⟨k, h1, h2, _⟩ := C126_job (exSt_fine 0 _ _ exDir) (exSt_keeps 0 _ _ _ _ rfl fun _ _ _ m h => by simpa [exCfg] using h) (exCod_good _ _) (exTmp_ok _ _)
    (by decide) exRun (exActs _ _) (exActs_ok _) l hl
  ⟨k, h1, h2⟩

section
open Verif.PackedTrain Verif.PackedTrain.Spec Verif.PackedLoss Verif.PackedLoss.Spec Verif.MicroLoss Verif.Transformer

/-- Batches as long as the data set goes: two packed rows, or three padded ones. -/
noncomputable def packedGlue (_ : Nat → Option Nat) : Train.Batch Cells := features (packedBatch 4 3 true demoGroups)

noncomputable def paddedGlue (_ : Nat → Option Nat) : Train.Batch Cells := features (paddedBatch 3 5 true demoGroups.flatten)

/-- The kernel of the logits of a small network is trained with any optimizer with one number of state, by a job that is killed twice and by one that is
never killed. -/
example {lg : ℕ → ℝ} (tr : Train.Cfg ℝ (Kernel 1 2) (Kernel 1 2 →L[ℝ] ℝ) Nat Unit R Cells) (q : Kernel 1 2)
    (l l' : TrainJob.Live (Train.State (Kernel 1 2) Nat Unit) (Nat × Nat))
    (hl : (TrainJob.job (prog (exSt q none "/m".toList) (comp .plain (exU q none) (exCod _ _)
      { tr with lossGrad := lossGrad (encDec flushed lg demoNets (.const 3) 0 0 4 3), microbatches := some 2 } ⟨0, q, 0, none⟩ exPipe 0 packedGlue) exTmp)
      (exActs _ _)).live = some l)
    (hl' : (TrainJob.job (prog (exSt q none "/m".toList) (comp .plain (exU q none) (exCod _ _)
      { tr with lossGrad := lossGrad (encDec flushed lg demoNets (.const 3) 0 0 3 5), microbatches := some 3 } ⟨0, q, 0, none⟩ exPipe 1 paddedGlue) exTmp)
      [.attempt (exAttempt _ _ true 2 none)]).live = some l') (hs : l.m.step = l'.m.step) : l.m = l'.m :=
  C126_packed (Bd := 7) DecoderOnly.flushed_underflows (by norm_num) demoNets tr true _ (by simp [PackedLoss.Spec.PackingSafe]) (.inr ⟨3, rfl⟩) 0 0 (fun _ => demoGroups)
    (fun _ => demo_wf) (fun _ => by simp [PackedLoss.Spec.Fits, demoGroups]) (fun _ => by simp [PackedLoss.Spec.Fits, demoGroups]) 2 3
    (fun _ => by simp [demoGroups]) (fun _ => by simp [demoGroups]) ⟨0, q, 0, none⟩ rfl
    (pipe := exPipe) (seed := 0) (glue := packedGlue) (S := 2) (by decide) (pipe' := exPipe) (seed' := 1) (glue' := paddedGlue) (S' := 2) (by decide)
    (fun _ => C118_features _) (fun _ => C118_features _)
    (fun _ _ _ => ⟨Filter.Eventually.of_forall demoNets_tame, demoNets_smooth true _ _ _ (C118_features _).packed, demoNets_smooth false _ _ _ (C118_features _).packed⟩)
    (exSt_fine q _ _ exDir) (exCod_good _ _) (exTmp_ok _ _) (exSt_keeps q _ _ _ _ rfl fun _ _ _ _ h => h)
    (exSt_fine q _ _ exDir) (exCod_good _ _) (exTmp_ok _ _) (exSt_keeps q _ _ _ _ rfl fun _ _ _ _ h => h)
    (exActs _ _) (exActs_ok _) [.attempt (exAttempt _ _ true 2 none)]
    (fun a ha => by
      simp only [List.mem_cons, List.not_mem_nil, or_false, TrainJob.Act.attempt.injEq] at ha
      subst ha
      exact ⟨TrainJob.demoCluster_good true, JobFiles.twice_writes, fun _ _ _ => rfl⟩) l l' hl hl' hs

end

end

end Verif.TrainedJob
