import Verif.Common
import Verif.Spec.TrainJob
import Verif.Props.CkptDir
import Verif.Props.DsCkpt
import Verif.Props.TrainLoop
import Verif.Props.TrainSaves
/-
Property C102: a training job that is killed and restarted any number of times.
-/
namespace Verif.TrainJob
open Verif Spec
open Verif.Ckpt (FName Dir FS Policy Job Ev latestStep ckptName saveOps executed runOps history execEv)
open Verif.Ckpt.Spec (ValidHistory Valid Complete)
open Verif.DsCkpt (Pipe Host Files dsName)
open Verif.LocalChunk (Layout)

variable {M σ B δ α : Type}

/-! ### The state of the processes -/

/-- The processes of a cluster hold the ideal state after `k` steps, with iterators at position `i`. -/
structure At (P : Prog M σ B δ) (n k i : Nat) (cl : List (Nat × Layout)) (l : Live M σ) : Prop where
  cluster : GoodCluster n cl
  m : l.m = ideal P n k
  hosts : l.hosts = cl.map fun x => ⟨x.1, x.2, some (P.pipe.next^[i] (P.pipe.init P.seed x.2.shardId x.2.numShards))⟩

theorem ideal_step {P : Prog M σ B δ} (hP : GoodProg P) (n k : Nat) : P.stepOf (ideal P n k) = P.stepOf P.init + k := by
  induction k with
  | zero => rfl
  | succ k ih => simp only [ideal, hP.step, ih]; omega

theorem At.stepOf {P : Prog M σ B δ} (hP : GoodProg P) {n k i : Nat} {cl : List (Nat × Layout)} {l : Live M σ}
    (h : At P n k i cl l) : P.stepOf l.m = P.stepOf P.init + k := by rw [h.m, ideal_step hP]

theorem at_fresh (P : Prog M σ B δ) (n : Nat) (cl : List (Nat × Layout)) (h : GoodCluster n cl) :
    At P n 0 0 cl (fresh P cl) := ⟨h, rfl, rfl⟩

theorem advance_at (p : Pipe σ B) (f : Nat × Layout → σ) (i : Nat) (cl : List (Nat × Layout)) :
    advance p (cl.map fun x => (⟨x.1, x.2, some (p.next^[i] (f x))⟩ : Host σ)) =
      cl.map fun x => ⟨x.1, x.2, some (p.next^[i + 1] (f x))⟩ := by
  unfold advance
  rw [List.map_map]
  apply List.map_congr_left
  intro x _
  simp [DsCkpt.steps, Function.iterate_succ_apply']

theorem batch_at {P : Prog M σ B δ} {n k i : Nat} {cl : List (Nat × Layout)} {l : Live M σ} (h : At P n k i cl l) :
    globalBatch P.pipe l.hosts = fun s => if s < n then some (idealBatch P n i s) else none := by
  funext s
  unfold globalBatch
  rw [h.hosts]
  by_cases hs : s < n
  · rw [if_pos hs]
    obtain ⟨x, hx, h1, -⟩ := h.cluster.first s hs
    cases hf : (cl.map fun x => (⟨x.1, x.2, some (P.pipe.next^[i] (P.pipe.init P.seed x.2.shardId x.2.numShards))⟩ : Host σ)).find?
        (fun h => h.layout.shardId = s) with
    | none =>
      have := List.find?_eq_none.1 hf _ (List.mem_map.2 ⟨x, hx, rfl⟩)
      simp [h1] at this
    | some y =>
      have h2 := List.find?_some hf
      obtain ⟨z, hz, rfl⟩ := List.mem_map.1 (List.mem_of_find?_eq_some hf)
      have h3 : z.2.shardId = s := by simpa using h2
      simp only [Option.bind_some, Option.map_some, idealBatch, h3, (h.cluster.shards z hz).1]
  · rw [if_neg hs]
    have : (cl.map fun x => (⟨x.1, x.2, some (P.pipe.next^[i] (P.pipe.init P.seed x.2.shardId x.2.numShards))⟩ : Host σ)).find?
        (fun h => h.layout.shardId = s) = none := by
      rw [List.find?_eq_none]
      intro y hy
      obtain ⟨z, hz, rfl⟩ := List.mem_map.1 hy
      have := (h.cluster.shards z hz).2
      simp only [decide_eq_true_eq]
      omega
    rw [this]
    rfl

theorem at_step1 {P : Prog M σ B δ} {n k : Nat} {cl : List (Nat × Layout)} {l : Live M σ} (h : At P n k k cl l) :
    At P n (k + 1) (k + 1) cl (step1 P l) := by
  refine ⟨h.cluster, ?_, ?_⟩
  · simp only [step1, batch_at h, ideal, h.m]
  · simp only [step1, h.hosts]
    exact advance_at P.pipe (fun x => P.pipe.init P.seed x.2.shardId x.2.numShards) k cl

theorem at_stepN {P : Prog M σ B δ} {n : Nat} {cl : List (Nat × Layout)} (j : Nat) : ∀ {k : Nat} {l : Live M σ}, At P n k k cl l →
    At P n (k + j) (k + j) cl (stepN P j l) := by
  induction j with
  | zero => intro k l h; exact h
  | succ j ih =>
    intro k l h
    have := ih (at_step1 h)
    rwa [show k + 1 + j = k + (j + 1) by omega] at this

theorem at_holds {P : Prog M σ B δ} (hP : GoodProg P) {n k i : Nat} (hn : 0 < n) {cl : List (Nat × Layout)} {l : Live M σ}
    (h : At P n k i cl l) : Holds P n k i l := by
  refine ⟨h.m, h.stepOf hP, ?_, ?_⟩
  · obtain ⟨x, hx, -⟩ := h.cluster.first 0 hn
    rw [h.hosts]
    intro e
    rw [List.map_eq_nil_iff] at e
    rw [e] at hx
    cases hx
  · intro y hy j
    rw [h.hosts] at hy
    obtain ⟨x, hx, rfl⟩ := List.mem_map.1 hy
    simp only [DsCkpt.batchAt, Option.map_some, idealBatch, (h.cluster.shards x hx).1]
    rw [← Function.iterate_add_apply, Nat.add_comm]

/-! ### Reading a complete checkpoint -/

theorem readDs_get (P : Prog M σ B δ) (d : Dir δ) (f : FName) (x : δ) (s : σ) (h : PyDict.get d f = some (some x))
    (hs : P.decS x = some s) : PyDict.get (readDs P d) f = some s := by
  induction d with
  | nil => simp [PyDict.get] at h
  | cons e d ih =>
    obtain ⟨k, v⟩ := e
    by_cases hk : k = f
    · subst hk
      have hv : v = some x := by simpa [PyDict.get] using h
      subst hv
      simp [readDs, hs, PyDict.get]
    · have h' : PyDict.get d f = some (some x) := by simpa [PyDict.get, hk] using h
      have := ih h'
      unfold readDs at this ⊢
      rw [List.filterMap_cons]
      cases hv : (v.bind P.decS).map fun s => (k, s) with
      | none => simp only [hv]; exact this
      | some y =>
        simp only [hv]
        have : y.1 = k := by
          obtain ⟨z, -, rfl⟩ := Option.map_eq_some_iff.1 hv
          rfl
        simp only [PyDict.get, this, hk, if_false]
        assumption

/-- The iterator file of a shard, in the checkpoint of a state. -/
theorem saved_ds {P : Prog M σ B δ} {n k i : Nat} {cl : List (Nat × Layout)} {l : Live M σ} (h : At P n k i cl l)
    (y : Layout) (hy : y.numShards = n ∧ y.shardId < n) :
    PyDict.get (DsCkpt.save l.hosts) (dsName y) = some (P.pipe.next^[i] (P.pipe.init P.seed y.shardId y.numShards)) := by
  obtain ⟨x, hx, h1, h2⟩ := h.cluster.first y.shardId hy.2
  rw [h.hosts]
  refine DsCkpt.fold_get (fun h => dsName h.layout) _ _ _ _ ?_ (Or.inr ⟨_, List.mem_map.2 ⟨x, hx, rfl⟩, ?_, ?_⟩)
  · intro z hz _ hzn
    obtain ⟨w, -, rfl⟩ := List.mem_map.1 hz
    obtain ⟨e1, e2⟩ := DsCkpt.dsName_inj _ _ hzn
    simp only at e1 e2 ⊢
    rw [e1, e2]
  · simp [DsCkpt.shouldWrite, h2]
  · simp only [dsName]
    rw [h1, (h.cluster.shards x hx).1, hy.1]

theorem get_mem {κ β : Type} [DecidableEq κ] (d : List (κ × β)) (a : κ) (b : β) (h : PyDict.get d a = some b) : (a, b) ∈ d := by
  induction d with
  | nil => simp [PyDict.get] at h
  | cons e d ih =>
    obtain ⟨k, v⟩ := e
    by_cases hk : k = a
    · subst hk
      have : v = b := by simpa [PyDict.get] using h
      subst this
      exact List.mem_cons_self
    · exact List.mem_cons_of_mem _ (ih (by simpa [PyDict.get, hk] using h))

theorem restoreHosts_at {P : Prog M σ B δ} (hP : GoodProg P) {n k i : Nat} {cl : List (Nat × Layout)} {l : Live M σ}
    (h : At P n k i cl l) (d : Dir δ) (hd : ∀ f x, (f, x) ∈ filesOf P l → PyDict.get d f = some (some x))
    (cl' : List (Nat × Layout)) (hc : ∀ x ∈ cl', x.2.numShards = n ∧ x.2.shardId < n) :
    restoreHosts (readDs P d) (cl'.map fun x => DsCkpt.start P.pipe P.seed x.1 x.2) =
      some (cl'.map fun x => ⟨x.1, x.2, some (P.pipe.next^[i] (P.pipe.init P.seed x.2.shardId x.2.numShards))⟩) := by
  induction cl' with
  | nil => rfl
  | cons x cl' ih =>
    have e1 := saved_ds h x.2 (hc x List.mem_cons_self)
    have e2 : PyDict.get (readDs P d) (dsName x.2) = some (P.pipe.next^[i] (P.pipe.init P.seed x.2.shardId x.2.numShards)) := by
      refine readDs_get P d _ _ _ (hd _ _ ?_) (hP.ds _)
      unfold filesOf
      exact List.mem_append_right _ (List.mem_map.2 ⟨_, get_mem _ _ _ e1, rfl⟩)
    have e3 : DsCkpt.restore (readDs P d) (DsCkpt.start P.pipe P.seed x.1 x.2) =
        some ⟨x.1, x.2, some (P.pipe.next^[i] (P.pipe.init P.seed x.2.shardId x.2.numShards))⟩ := by
      simp [DsCkpt.restore, DsCkpt.start, e2]
    simp only [List.map_cons, restoreHosts, e3, ih (fun y hy => hc y (List.mem_cons_of_mem _ hy))]

/-! ### The directory -/

section
variable [LinearOrder α] [BoundedOrder α]

/-- The jobs of a history are saves of ideal states. -/
def Good (P : Prog M σ B δ) (n : Nat) (evs : List (Ev δ α)) : Prop :=
  ValidHistory evs ∧ ∀ pol kd j c, Ev.save pol kd j c ∈ evs → ∃ k cl l, At P n k k cl l ∧ j.step = P.stepOf l.m ∧ j.files = filesOf P l

theorem log_mem (evs : List (Ev δ α)) : ∀ (st : Ckpt.St δ) (j : Job δ), j ∈ (evs.foldl execEv st).log →
    j ∈ st.log ∨ ∃ pol kd c, Ev.save pol kd j c ∈ evs := by
  induction evs with
  | nil => intro st j h; exact Or.inl h
  | cons e evs ih =>
    intro st j h
    rcases ih _ j h with h | ⟨pol, kd, c, h⟩
    · cases e with
      | pin s => exact Or.inl h
      | unpin s => exact Or.inl h
      | save pol kd job c =>
        simp only [execEv] at h
        split_ifs at h
        · rcases List.mem_cons.1 h with rfl | h
          · exact Or.inr ⟨pol, kd, c, List.mem_cons_self⟩
          · exact Or.inl h
        · exact Or.inl h
    · exact Or.inr ⟨pol, kd, c, List.mem_cons_of_mem _ h⟩

theorem log_grows (evs : List (Ev δ α)) : ∀ (st : Ckpt.St δ) (j : Job δ), j ∈ st.log → j ∈ (evs.foldl execEv st).log := by
  induction evs with
  | nil => intro st j h; exact h
  | cons e evs ih =>
    intro st j h
    apply ih
    cases e with
    | pin s => exact h
    | unpin s => exact h
    | save pol kd job c =>
      simp only [execEv]
      split_ifs
      · exact List.mem_cons_of_mem _ h
      · exact h

theorem lastSave_mem (log : List (Job δ)) (s : Nat) (j : Job δ) (h : Ckpt.Spec.lastSave log s = some j) : j ∈ log ∧ j.step = s := by
  unfold Ckpt.Spec.lastSave at h
  exact ⟨List.mem_of_find?_eq_some h, by simpa using List.find?_some h⟩

/-- The latest step is the largest one ever saved. -/
theorem latest_iff (evs : List (Ev δ α)) (hv : ValidHistory evs) (s : Nat) :
    latestStep (history evs).fs = some s ↔ (∃ j ∈ (history evs).log, j.step = s) ∧ ∀ j ∈ (history evs).log, j.step ≤ s := by
  obtain ⟨h1, h2⟩ := Ckpt.C20_latest_complete evs hv
  constructor
  · intro h
    obtain ⟨a, j, d, b, -⟩ := h2 s h
    obtain ⟨c1, c2⟩ := lastSave_mem _ _ _ b
    exact ⟨⟨j, c1, c2⟩, a⟩
  · rintro ⟨⟨j, hj, rfl⟩, hle⟩
    cases hl : latestStep (history evs).fs with
    | none => rw [h1.1 hl] at hj; cases hj
    | some t =>
      obtain ⟨a, j', d, b, -⟩ := h2 t hl
      obtain ⟨c1, c2⟩ := lastSave_mem _ _ _ b
      have := a j hj
      have := hle j' c1
      congr 1
      omega

theorem latest_grows (evs evs' : List (Ev δ α)) (hv : ValidHistory (evs ++ evs')) (s : Nat)
    (h : latestStep (history evs).fs = some s) : ∃ t, s ≤ t ∧ latestStep (history (evs ++ evs')).fs = some t := by
  have hv1 : ValidHistory evs := fun pol kd j c hm => hv pol kd j c (List.mem_append_left _ hm)
  obtain ⟨⟨j, hj, rfl⟩, -⟩ := (latest_iff evs hv1 s).1 h
  have hj' : j ∈ (history (evs ++ evs')).log := by
    unfold history
    rw [List.foldl_append]
    exact log_grows _ _ _ hj
  cases hl : latestStep (history (evs ++ evs')).fs with
  | none =>
    rw [(Ckpt.C20_latest_complete _ hv).1.1 hl] at hj'
    cases hj'
  | some t => exact ⟨t, ((latest_iff _ hv t).1 hl).2 j hj', rfl⟩

/-- Restoring when the latest checkpoint holds the files of a state. -/
theorem restore_dir {P : Prog M σ B δ} (hP : GoodProg P) {n k i : Nat} {cl0 : List (Nat × Layout)} {l0 : Live M σ} (h0 : At P n k i cl0 l0)
    (fs : FS δ) (s : Nat) (hs : latestStep fs = some s) (d : Dir δ) (hd : PyDict.get fs (ckptName s) = some d)
    (hc : ∀ f x, (f, x) ∈ filesOf P l0 → PyDict.get d f = some (some x)) (cl : List (Nat × Layout)) (hcl : GoodCluster n cl) :
    ∃ l, restore P cl fs = some l ∧ At P n k i cl l ∧ l.m = l0.m := by
  have e1 : P.decM s d = some l0.m := by
    rw [h0.m]
    exact hP.model _ _ _ _ (fun f x hf => hc f x (List.mem_append_left _ (by rw [h0.m]; exact hf)))
  have e2 := restoreHosts_at hP h0 d hc cl hcl.shards
  refine ⟨⟨l0.m, cl.map fun x => ⟨x.1, x.2, some (P.pipe.next^[i] (P.pipe.init P.seed x.2.shardId x.2.numShards))⟩⟩, ?_,
    ⟨hcl, h0.m, rfl⟩, rfl⟩
  simp only [restore, hs, hd, e1]
  rw [show (fresh P cl).hosts = cl.map fun x => DsCkpt.start P.pipe P.seed x.1 x.2 from rfl, e2]

/-- Restoring from a directory written by good saves. -/
theorem restore_good {P : Prog M σ B δ} (hP : GoodProg P) {n : Nat} (evs : List (Ev δ α)) (hg : Good P n evs)
    (cl : List (Nat × Layout)) (hc : GoodCluster n cl) :
    (latestStep (history evs).fs = none → restore P cl (history evs).fs = some (fresh P cl)) ∧
    ∀ s, latestStep (history evs).fs = some s →
      ∃ k l, restore P cl (history evs).fs = some l ∧ At P n k k cl l ∧ P.stepOf l.m = s := by
  constructor
  · intro h
    simp only [restore, h]
  · intro s h
    obtain ⟨-, j, d, h1, h2, h3⟩ := (Ckpt.C20_latest_complete evs hg.1).2 s h
    obtain ⟨hj, hjs⟩ := lastSave_mem _ _ _ h1
    rcases log_mem evs _ j hj with hj | ⟨pol, kd, c, hj⟩
    · cases hj
    obtain ⟨k, cl0, l0, a1, a2, a3⟩ := hg.2 _ _ _ _ hj
    have hd : ∀ f x, (f, x) ∈ filesOf P l0 → PyDict.get d f = some (some x) := by rw [← a3]; exact h3
    obtain ⟨l, b1, b2, b3⟩ := restore_dir hP a1 _ s h d h2 hd cl hc
    exact ⟨k, l, b1, b2, by rw [b3, ← hjs, a2]⟩

/-! ### Attempts -/

/-- What an attempt does to the directory is a history that continues the one so far, with saves of good states only. -/
theorem exec1_good {P : Prog M σ B δ} (hP : GoodProg P) {n : Nat} (a : Attempt M σ δ α) (ha : GoodAttempt P n a)
    (crash : Option Nat) (e : Do) (he : ∀ r, e = .lose r → r = 0) (evs : List (Ev δ α)) (hg : Good P n evs) (k : Nat) (l : Live M σ)
    (h : At P n k k a.cluster l) :
    ∃ evs' k' l', exec1 P a crash ((history evs).fs, l) e = ((history (evs ++ evs')).fs, l') ∧ Good P n (evs ++ evs') ∧
      At P n k' k' a.cluster l' ∧ k ≤ k' ∧ ∀ pol kd j c, Ev.save pol kd j c ∈ evs' → j.step ≤ P.stepOf P.init + k' := by
  cases e with
  | train m =>
    refine ⟨[], _, _, by rw [List.append_nil]; rfl, by rw [List.append_nil]; exact hg, at_stepN _ h, by omega, ?_⟩
    intro pol kd j c hm
    cases hm
  | eval =>
    refine ⟨[], _, _, by rw [List.append_nil]; rfl, by rw [List.append_nil]; exact hg, h, le_rfl, ?_⟩
    intro pol kd j c hm
    cases hm
  | lose m =>
    obtain rfl := he m rfl
    refine ⟨[], k, l, ?_, by rw [List.append_nil]; exact hg, h, le_rfl, ?_⟩
    · rw [List.append_nil]
      cases crash <;> simp [exec1, stepN]
    · intro pol kd j c hm
      cases hm
  | save =>
    refine ⟨[.save a.pol a.keepDs (jobOf P a l) crash], k, l, ?_, ⟨?_, ?_⟩, h, le_rfl, ?_⟩
    · simp only [exec1, history, List.foldl_append, List.foldl_cons, List.foldl_nil, execEv]
    · intro pol kd j c hm
      rcases List.mem_append.1 hm with hm | hm
      · exact hg.1 pol kd j c hm
      · rw [List.mem_singleton] at hm
        cases hm
        exact ha.saves l ⟨k, h.m⟩
    · intro pol kd j c hm
      rcases List.mem_append.1 hm with hm | hm
      · exact hg.2 pol kd j c hm
      · rw [List.mem_singleton] at hm
        cases hm
        exact ⟨k, a.cluster, l, h, rfl, rfl⟩
    · intro pol kd j c hm
      rw [List.mem_singleton] at hm
      cases hm
      exact le_of_eq (h.stepOf hP)

theorem execAll_good {P : Prog M σ B δ} (hP : GoodProg P) {n : Nat} (a : Attempt M σ δ α) (ha : GoodAttempt P n a) (es : List Do) :
    ∀ (kill : Option (Nat × Nat)) (_ : ∀ r, .lose r ∈ es → r = 0) (evs : List (Ev δ α)) (_ : Good P n evs) (k : Nat) (l : Live M σ)
    (_ : At P n k k a.cluster l),
    ∃ evs' k' l', execAll P a es kill ((history evs).fs, l) = ((history (evs ++ evs')).fs, l') ∧ Good P n (evs ++ evs') ∧
      At P n k' k' a.cluster l' ∧ k ≤ k' ∧ ∀ pol kd j c, Ev.save pol kd j c ∈ evs' → j.step ≤ P.stepOf P.init + k' := by
  induction es with
  | nil =>
    intro kill _ evs hg k l h
    refine ⟨[], k, l, by rw [List.append_nil]; rfl, by rw [List.append_nil]; exact hg, h, le_rfl, ?_⟩
    intro pol kd j c hm
    cases hm
  | cons e es ih =>
    intro kill hes evs hg k l h
    have step : ∀ kill', ∃ evs' k' l', execAll P a es kill' (exec1 P a none ((history evs).fs, l) e) = ((history (evs ++ evs')).fs, l') ∧
        Good P n (evs ++ evs') ∧ At P n k' k' a.cluster l' ∧ k ≤ k' ∧
        ∀ pol kd j c, Ev.save pol kd j c ∈ evs' → j.step ≤ P.stepOf P.init + k' := by
      intro kill'
      obtain ⟨e1, k1, l1, a1, a2, a3, a4, a5⟩ :=
        exec1_good hP a ha none e (fun r hr => hes r (by rw [hr]; exact List.mem_cons_self)) evs hg k l h
      obtain ⟨e2, k2, l2, b1, b2, b3, b4, b5⟩ := ih kill' (fun r hr => hes r (List.mem_cons_of_mem _ hr)) _ a2 k1 l1 a3
      refine ⟨e1 ++ e2, k2, l2, ?_, ?_, b3, by omega, ?_⟩
      · rw [a1, b1, List.append_assoc]
      · rw [← List.append_assoc]; exact b2
      · intro pol kd j c hm
        rcases List.mem_append.1 hm with hm | hm
        · have := a5 pol kd j c hm; omega
        · exact b5 pol kd j c hm
    match kill with
    | none => exact step none
    | some (0, c) => exact exec1_good hP a ha (some c) e (fun r hr => hes r (by rw [hr]; exact List.mem_cons_self)) evs hg k l h
    | some (i + 1, c) => exact step (some (i, c))

theorem script_clean (a : Attempt M σ δ α) (hc : CleanPreemption a) (first r : Nat) (h : Do.lose r ∈ script a first) : r = 0 := by
  have no : ∀ evs : List TrainLoop.Event, Do.lose r ∉ evs.map toDo := by
    intro evs hm
    obtain ⟨e, -, he⟩ := List.mem_map.1 hm
    cases e <;> cases he
  unfold script at h
  split at h
  · exact absurd h (no _)
  · rename_i st hst
    have h0 := hc first st hst
    split_ifs at h
    · rcases List.mem_append.1 h with h | h
      · exact absurd h (no _)
      · simp at h; omega
    · rcases List.mem_append.1 h with h | h
      · exact absurd h (no _)
      · simp at h; omega
  · exact absurd h (no _)

/-- The state of the job between two acts. -/
structure Inv (P : Prog M σ B δ) (n : Nat) (evs : List (Ev δ α)) (w : World M σ δ) : Prop where
  fs : w.fs = (history evs).fs
  good : Good P n evs
  live : ∀ l, w.live = some l → ∃ k cl, At P n k k cl l

theorem restore_at {P : Prog M σ B δ} (hP : GoodProg P) {n : Nat} (evs : List (Ev δ α)) (hg : Good P n evs)
    (cl : List (Nat × Layout)) (hc : GoodCluster n cl) :
    ∃ k l, restore P cl (history evs).fs = some l ∧ At P n k k cl l ∧
      (latestStep (history evs).fs = none → k = 0) ∧ ∀ s, latestStep (history evs).fs = some s → P.stepOf l.m = s := by
  obtain ⟨h1, h2⟩ := restore_good hP evs hg cl hc
  cases hl : latestStep (history evs).fs with
  | none => exact ⟨0, _, h1 hl, at_fresh P n cl hc, fun _ => rfl, (fun s hs => by cases hs)⟩
  | some s =>
    obtain ⟨k, l, a1, a2, a3⟩ := h2 s hl
    exact ⟨k, l, a1, a2, (fun h => by cases h), (fun s' hs => by cases hs; exact a3)⟩

theorem act_inv {P : Prog M σ B δ} (hP : GoodProg P) {n : Nat} (evs : List (Ev δ α)) (w : World M σ δ) (hi : Inv P n evs w)
    (x : Act M σ δ α) (hx : GoodActs P n [x]) : ∃ evs', Inv P n (evs ++ evs') (act P w x) := by
  cases x with
  | pin s =>
    refine ⟨[.pin s], ?_, ⟨?_, ?_⟩, hi.live⟩
    · simp only [act, history, List.foldl_append, List.foldl_cons, List.foldl_nil, execEv]
      rw [hi.fs]; rfl
    · intro pol kd j c hm
      rcases List.mem_append.1 hm with hm | hm
      · exact hi.good.1 pol kd j c hm
      · simp at hm
    · intro pol kd j c hm
      rcases List.mem_append.1 hm with hm | hm
      · exact hi.good.2 pol kd j c hm
      · simp at hm
  | unpin s =>
    refine ⟨[.unpin s], ?_, ⟨?_, ?_⟩, hi.live⟩
    · simp only [act, history, List.foldl_append, List.foldl_cons, List.foldl_nil, execEv]
      rw [hi.fs]; rfl
    · intro pol kd j c hm
      rcases List.mem_append.1 hm with hm | hm
      · exact hi.good.1 pol kd j c hm
      · simp at hm
    · intro pol kd j c hm
      rcases List.mem_append.1 hm with hm | hm
      · exact hi.good.2 pol kd j c hm
      · simp at hm
  | attempt a =>
    obtain ⟨ha, hc⟩ := hx a List.mem_cons_self
    obtain ⟨k, l, a1, a2, -⟩ := restore_at hP evs hi.good a.cluster ha.cluster
    obtain ⟨evs', k', l', b1, b2, b3, -⟩ := execAll_good hP a ha (script a (P.stepOf l.m)) a.kill
      (fun r hr => script_clean a hc _ r hr) evs hi.good k l a2
    refine ⟨evs', ?_, b2, ?_⟩
    · simp only [act, hi.fs, a1, b1]
    · intro l0 h0
      simp only [act, hi.fs, a1, b1, Option.some.injEq] at h0
      subst h0
      exact ⟨k', a.cluster, b3⟩

theorem acts_inv {P : Prog M σ B δ} (hP : GoodProg P) {n : Nat} (acts : List (Act M σ δ α)) :
    ∀ (evs : List (Ev δ α)) (w : World M σ δ) (_ : Inv P n evs w) (_ : GoodActs P n acts),
    ∃ evs', Inv P n (evs ++ evs') (acts.foldl (act P) w) := by
  induction acts with
  | nil => intro evs w hi _; exact ⟨[], by rw [List.append_nil]; exact hi⟩
  | cons x acts ih =>
    intro evs w hi hg
    obtain ⟨e1, h1⟩ := act_inv hP evs w hi x (fun a ha => hg a (by rw [List.mem_singleton] at ha; rw [ha]; exact List.mem_cons_self))
    obtain ⟨e2, h2⟩ := ih _ _ h1 (fun a ha => hg a (List.mem_cons_of_mem _ ha))
    exact ⟨e1 ++ e2, by rw [← List.append_assoc]; exact h2⟩

theorem job_inv {P : Prog M σ B δ} (hP : GoodProg P) {n : Nat} (acts : List (Act M σ δ α)) (hg : GoodActs P n acts) :
    ∃ evs : List (Ev δ α), Inv P n evs (job P acts) := by
  obtain ⟨e, h⟩ := acts_inv hP acts ([] : List (Ev δ α)) ⟨[], none⟩
    ⟨rfl, ⟨fun _ _ _ _ h => (by cases h), fun _ _ _ _ h => (by cases h)⟩, fun _ h => (by cases h)⟩ hg
  exact ⟨_, h⟩

/-- Nothing in the directory is ahead of the processes. -/
theorem old_bound {P : Prog M σ B δ} (hP : GoodProg P) {n : Nat} (evs evs' : List (Ev δ α)) (hg : Good P n evs) (k : Nat) (l : Live M σ)
    {cl : List (Nat × Layout)} (h : At P n k k cl l) (h4 : ∀ s, latestStep (history evs).fs = some s → P.stepOf l.m = s) (k' : Nat)
    (hk : k ≤ k') (h5 : ∀ pol kd j c, Ev.save pol kd j c ∈ evs' → j.step ≤ P.stepOf P.init + k') (j : Job δ)
    (hj : j ∈ (history (evs ++ evs')).log) : j.step ≤ P.stepOf P.init + k' := by
  unfold history at hj
  rw [List.foldl_append] at hj
  rcases log_mem evs' _ j hj with hj | ⟨pol, kd, c, hj⟩
  · cases hl : latestStep (history evs).fs with
    | none =>
      have := (Ckpt.C20_latest_complete evs hg.1).1.1 hl
      unfold history at this
      rw [this] at hj
      cases hj
    | some s =>
      have h1 := h4 s hl
      have h2 := ((latest_iff evs hg.1 s).1 hl).2 j hj
      rw [h.stepOf hP] at h1
      omega
  · exact h5 pol kd j c hj

/-- One more attempt, seen from inside. -/
theorem attempt_facts {P : Prog M σ B δ} (hP : GoodProg P) {n : Nat} (acts : List (Act M σ δ α)) (hg : GoodActs P n acts)
    (a : Attempt M σ δ α) (ha : GoodAttempt P n a) :
    ∃ (evs : List (Ev δ α)) (k : Nat) (l : Live M σ), Inv P n evs (job P acts) ∧ restore P a.cluster (job P acts).fs = some l ∧
      At P n k k a.cluster l ∧ (latestStep (job P acts).fs = none → k = 0) ∧
      (∀ s, latestStep (job P acts).fs = some s → P.stepOf l.m = s) ∧
      ∀ kill, job P (acts ++ [.attempt { a with kill := kill }]) =
        ⟨(execAll P a (script a (P.stepOf l.m)) kill ((history evs).fs, l)).1,
          some (execAll P a (script a (P.stepOf l.m)) kill ((history evs).fs, l)).2⟩ := by
  obtain ⟨evs, hi⟩ := job_inv hP acts hg
  obtain ⟨k, l, a1, a2, a3, a4⟩ := restore_at hP evs hi.good a.cluster ha.cluster
  rw [← hi.fs] at a1 a3 a4
  refine ⟨evs, k, l, hi, a1, a2, a3, a4, ?_⟩
  intro kill
  have : job P (acts ++ [.attempt { a with kill := kill }]) = act P (job P acts) (.attempt { a with kill := kill }) := by
    unfold job
    rw [List.foldl_append]
    rfl
  rw [this]
  have e1 : ∀ es k x, execAll P { a with kill := kill } es k x = execAll P a es k x := by
    intro es
    have e0 : ∀ c x e, exec1 P { a with kill := kill } c x e = exec1 P a c x e := by
      intro c x e
      cases e <;> rfl
    induction es with
    | nil => intro k x; rfl
    | cons e es ih =>
      intro k x
      match k with
      | none => simp only [execAll, e0, ih]
      | some (0, c) => simp only [execAll, e0]
      | some (i + 1, c) => simp only [execAll, e0, ih]
  simp only [act, a1]
  rw [e1, hi.fs]
  rfl

/-! ### The theorems -/

/-- **C102**.  A job is started any number of times on clusters with `n` data shards, each time with any configuration, retention policy
and environment, is killed at any moment (also inside a save), and checkpoints are pinned and unpinned in between.  Then whatever
the processes hold at any moment is the state of a job that was never interrupted after as many steps, and each of them will be
fed the batches of that job from there on. -/
theorem C102_uninterrupted {P : Prog M σ B δ} (hP : GoodProg P) {n : Nat} (hn : 0 < n) (acts : List (Act M σ δ α))
    (hg : GoodActs P n acts) (l : Live M σ) (hl : (job P acts).live = some l) : ∃ k, Holds P n k k l := by
  obtain ⟨evs, hi⟩ := job_inv hP acts hg
  obtain ⟨k, cl, h⟩ := hi.live l hl
  exact ⟨k, at_holds hP hn h⟩

theorem restart_bound {P : Prog M σ B δ} (hP : GoodProg P) {n : Nat} (acts : List (Act M σ δ α))
    (hg : GoodActs P n acts) (a : Attempt M σ δ α) (ha : GoodAttempt P n a) (hc : CleanPreemption a) :
    ∃ l, (job P (acts ++ [.attempt a])).live = some l ∧
      ∀ s, latestStep (job P (acts ++ [.attempt a])).fs = some s → s ≤ P.stepOf l.m := by
  obtain ⟨evs, k, l, hi, a1, a2, a3, a4, a5⟩ := attempt_facts hP acts hg a ha
  have e := a5 a.kill
  obtain ⟨evs', k', l', b1, b2, b3, b4, b5⟩ := execAll_good hP a ha (script a (P.stepOf l.m)) a.kill
    (fun r hr => script_clean a hc _ r hr) evs hi.good k l a2
  rw [b1] at e
  have e' : job P (acts ++ [.attempt a]) = ⟨(history (evs ++ evs')).fs, some l'⟩ := e
  rw [e']
  refine ⟨l', rfl, fun s hs => ?_⟩
  obtain ⟨⟨j, hj, rfl⟩, -⟩ := (latest_iff _ b2.1 s).1 hs
  rw [b3.stepOf hP]
  exact old_bound hP evs evs' hi.good k l a2 (by rw [← hi.fs]; exact a4) k' b4 b5 j hj

/-- **C102** (restarts succeed).  After any such history the next start finds the latest checkpoint complete, restores it on any good
cluster, and goes on from the step in its name; without a checkpoint it starts from the beginning.  The model directory is
never ahead of the processes. -/
theorem C102_restart {P : Prog M σ B δ} (hP : GoodProg P) {n : Nat} (hn : 0 < n) (acts : List (Act M σ δ α))
    (hg : GoodActs P n acts) (a : Attempt M σ δ α) (ha : GoodAttempt P n a) (hc : CleanPreemption a) :
    (∃ l k, restore P a.cluster (job P acts).fs = some l ∧ Holds P n k k l ∧
      (latestStep (job P acts).fs = none → k = 0) ∧ ∀ s, latestStep (job P acts).fs = some s → s = P.stepOf P.init + k) ∧
    ∃ l, (job P (acts ++ [.attempt a])).live = some l ∧
      ∀ s, latestStep (job P (acts ++ [.attempt a])).fs = some s → s ≤ P.stepOf l.m := by
  obtain ⟨evs, k, l, hi, a1, a2, a3, a4, a5⟩ := attempt_facts hP acts hg a ha
  constructor
  · refine ⟨l, k, a1, at_holds hP hn a2, a3, fun s hs => ?_⟩
    rw [← a4 s hs, a2.stepOf hP]
  · exact (restart_bound hP acts hg a ha hc)

/-- **C102** (no work is lost twice).  The latest step never decreases, whatever happens later. -/
theorem C102_monotone {P : Prog M σ B δ} (hP : GoodProg P) {n : Nat} (acts more : List (Act M σ δ α))
    (hg : GoodActs P n (acts ++ more)) (s : Nat) (hs : latestStep (job P acts).fs = some s) :
    ∃ t, s ≤ t ∧ latestStep (job P (acts ++ more)).fs = some t := by
  obtain ⟨evs, hi⟩ := job_inv hP acts (fun a ha => hg a (List.mem_append_left _ ha))
  obtain ⟨evs', hi'⟩ := acts_inv hP more evs _ hi (fun a ha => hg a (List.mem_append_right _ ha))
  have e : job P (acts ++ more) = more.foldl (act P) (job P acts) := by unfold job; rw [List.foldl_append]
  rw [e, hi'.fs]
  rw [hi.fs] at hs
  exact latest_grows evs evs' hi'.good.1 s hs

theorem execAll_append (P : Prog M σ B δ) (a : Attempt M σ δ α) (pre post : List Do) : ∀ (kill : Option (Nat × Nat)) (x : FS δ × Live M σ),
    (∀ i c, kill = some (i, c) → pre.length ≤ i) →
    execAll P a (pre ++ post) kill x =
      execAll P a post (kill.map fun y => (y.1 - pre.length, y.2)) (execAll P a pre none x) := by
  induction pre with
  | nil =>
    intro kill x _
    cases kill with
    | none => rfl
    | some y => simp [execAll]
  | cons e pre ih =>
    intro kill x hk
    match kill, hk with
    | none, _ =>
      simp only [List.cons_append, execAll]
      rw [ih none _ (fun i c h => by cases h)]
      rfl
    | some (0, c), hk =>
      have := hk 0 c rfl
      simp at this
    | some (i + 1, c), hk =>
      have := hk (i + 1) c rfl
      simp only [List.length_cons] at this
      simp only [List.cons_append, execAll]
      rw [ih (some (i, c)) _ (fun i' c' h => by cases h; omega)]
      simp [Nat.add_sub_add_right]

/-- After a save that is not interrupted the latest step is at least the one saved. -/
theorem exec1_save_latest {P : Prog M σ B δ} (hP : GoodProg P) {n : Nat} (a : Attempt M σ δ α) (ha : GoodAttempt P n a)
    (evs : List (Ev δ α)) (hg : Good P n evs) (l : Live M σ) (hl : ∃ k, l.m = ideal P n k) :
    ∃ t, P.stepOf l.m ≤ t ∧ latestStep (exec1 P a none ((history evs).fs, l) .save).1 = some t := by
  have hv : ValidHistory (evs ++ [.save a.pol a.keepDs (jobOf P a l) none]) := by
    intro pol kd j c hm
    rcases List.mem_append.1 hm with hm | hm
    · exact hg.1 pol kd j c hm
    · rw [List.mem_singleton] at hm
      cases hm
      exact ha.saves l hl
  have e : (exec1 P a none ((history evs).fs, l) .save).1 = (history (evs ++ [.save a.pol a.keepDs (jobOf P a l) none])).fs := by
    simp only [exec1, history, List.foldl_append, List.foldl_cons, List.foldl_nil, execEv]
  rw [e]
  have key : ∃ j ∈ (history (evs ++ [.save a.pol a.keepDs (jobOf P a l) none])).log, j.step = P.stepOf l.m := by
    have hi := Ckpt.inv_history evs hg.1
    cases h : PyDict.has (history evs).fs (ckptName (jobOf P a l).step) with
    | true =>
      obtain ⟨j, hj, hj'⟩ := hi.src _ h
      exact ⟨j, by unfold history; rw [List.foldl_append]; exact log_grows _ _ _ hj, hj'⟩
    | false =>
      refine ⟨jobOf P a l, ?_, rfl⟩
      have : (history (evs ++ [.save a.pol a.keepDs (jobOf P a l) none])) =
          execEv (history evs) (.save a.pol a.keepDs (jobOf P a l) none) := by
        unfold history; rw [List.foldl_append]; rfl
      rw [this]
      rcases Ckpt.executed_cases a.pol a.keepDs (history evs).fs (jobOf P a l) none h with ⟨c, -, h2, -⟩ | ⟨p, he, -⟩
      · cases h2
      · simp only [execEv, he, h, Bool.not_false, Bool.true_and, List.length_append]
        rw [if_pos (by simp)]
        exact List.mem_cons_self
  obtain ⟨j, hj, hj'⟩ := key
  cases hl : latestStep (history (evs ++ [.save a.pol a.keepDs (jobOf P a l) none])).fs with
  | none =>
    rw [(Ckpt.C20_latest_complete _ hv).1.1 hl] at hj
    cases hj
  | some t => exact ⟨t, by rw [← hj']; exact ((latest_iff _ hv t).1 hl).2 j hj, rfl⟩

/-- **C102** (saved steps survive).  If an attempt is not killed before or during its action number `i`, and that action is a save, then from then
on the latest step is at least the step at which the processes were when that action began. -/
theorem C102_kept {P : Prog M σ B δ} (hP : GoodProg P) {n : Nat} (acts : List (Act M σ δ α)) (hg : GoodActs P n acts)
    (a : Attempt M σ δ α) (ha : GoodAttempt P n a) (hc : CleanPreemption a) (l : Live M σ)
    (hl : restore P a.cluster (job P acts).fs = some l) (i : Nat) (hi : (script a (P.stepOf l.m))[i]? = some .save)
    (hk : ∀ i' c, a.kill = some (i', c) → i < i') (l' : Live M σ)
    (hl' : (job P (acts ++ [.attempt { a with kill := some (i, 0) }])).live = some l') :
    ∃ t, P.stepOf l'.m ≤ t ∧ latestStep (job P (acts ++ [.attempt a])).fs = some t := by
  obtain ⟨evs, k, l0, hinv, a1, a2, -, -, a5⟩ := attempt_facts hP acts hg a ha
  rw [hl] at a1
  cases a1
  have hlen : i < (script a (P.stepOf l.m)).length := by
    by_contra hcon
    rw [List.getElem?_eq_none (by omega)] at hi
    cases hi
  have hsplit : script a (P.stepOf l.m) = (script a (P.stepOf l.m)).take i ++ .save :: (script a (P.stepOf l.m)).drop (i + 1) := by
    rw [List.getElem?_eq_getElem hlen, Option.some.injEq] at hi
    rw [← hi, List.getElem_cons_drop, List.take_append_drop]
  have hpre : ((script a (P.stepOf l.m)).take i).length = i := by rw [List.length_take]; omega
  have hclean : ∀ r, Do.lose r ∈ script a (P.stepOf l.m) → r = 0 := fun r hr => script_clean a hc _ r hr
  obtain ⟨e1, k1, l1, b1, b2, b3, -⟩ := execAll_good hP a ha ((script a (P.stepOf l.m)).take i) none
    (fun r hr => hclean r (List.mem_of_mem_take hr)) evs hinv.good k l a2
  have e5 := a5 (some (i, 0))
  rw [hsplit, execAll_append P a _ _ _ _ (by intro i' c h; cases h; omega), b1, hpre] at e5
  simp only [Option.map_some, Nat.sub_self, execAll] at e5
  rw [e5] at hl'
  have hl1 : l' = l1 := by simp only [exec1, Option.some.injEq] at hl'; exact hl'.symm
  subst hl1
  have e6 := a5 a.kill
  have e6' : job P (acts ++ [.attempt a]) = _ := e6
  rw [hsplit, execAll_append P a _ _ _ _ (by intro i' c h; have := hk i' c h; omega), b1, hpre] at e6'
  have e7 : ∃ kill', execAll P a (.save :: (script a (P.stepOf l.m)).drop (i + 1)) (a.kill.map fun y => (y.1 - i, y.2))
      ((history (evs ++ e1)).fs, l') =
      execAll P a ((script a (P.stepOf l.m)).drop (i + 1)) kill' (exec1 P a none ((history (evs ++ e1)).fs, l') .save) := by
    match hkk : a.kill with
    | none => exact ⟨none, rfl⟩
    | some (i', c) =>
      have := hk i' c hkk
      obtain ⟨d, rfl⟩ : ∃ d, i' = i + (d + 1) := ⟨i' - i - 1, by omega⟩
      refine ⟨some (d, c), ?_⟩
      simp only [Option.map_some]
      rw [show i + (d + 1) - i = d + 1 by omega]
      rfl
  obtain ⟨kill', e7⟩ := e7
  rw [e7] at e6'
  obtain ⟨t, ht, hlt⟩ := exec1_save_latest hP a ha (evs ++ e1) b2 l' ⟨k1, b3.m⟩
  obtain ⟨e2, k2, l2, c1, c2, c3, -⟩ := exec1_good hP a ha none .save (fun r h => by cases h) (evs ++ e1) b2 k1 l' b3
  obtain ⟨e3, k3, l3, d1, d2, -⟩ := execAll_good hP a ha ((script a (P.stepOf l.m)).drop (i + 1)) kill'
    (fun r hr => hclean r (List.mem_of_mem_drop hr)) _ c2 k2 l2 c3
  rw [c1] at hlt e6'
  rw [d1] at e6'
  rw [e6']
  obtain ⟨t', ht', h⟩ := latest_grows _ e3 d2.1 t hlt
  exact ⟨t', by omega, h⟩

theorem stepN_stepOf {P : Prog M σ B δ} (hP : GoodProg P) (j : Nat) : ∀ l : Live M σ, P.stepOf (stepN P j l).m = P.stepOf l.m + j := by
  induction j with
  | zero => intro l; rfl
  | succ j ih => intro l; simp only [stepN, ih, step1, hP.step]; omega

/-- The number of steps in the train state counts the training steps executed. -/
theorem count {P : Prog M σ B δ} (hP : GoodProg P) (a : Attempt M σ δ α) (evs : List TrainLoop.Event) : ∀ x : FS δ × Live M σ,
    P.stepOf (execAll P a (evs.map toDo) none x).2.m = P.stepOf x.2.m + (TrainLoop.Spec.trainedSteps evs).length := by
  induction evs with
  | nil => intro x; rfl
  | cons e evs ih =>
    intro x
    have e1 : TrainLoop.Spec.trainedSteps (e :: evs) = TrainLoop.Spec.trainedSteps [e] ++ TrainLoop.Spec.trainedSteps evs :=
      TrainLoop.trainedSteps_append [e] evs
    rw [e1, List.map_cons, List.length_append]
    simp only [execAll, ih]
    cases e with
    | train s m => simp [toDo, exec1, TrainLoop.Spec.trainedSteps, stepN_stepOf hP]; omega
    | save s => simp [toDo, exec1, TrainLoop.Spec.trainedSteps]
    | trainEval s => simp [toDo, exec1, TrainLoop.Spec.trainedSteps]
    | inferEval s => simp [toDo, exec1, TrainLoop.Spec.trainedSteps]

/-- **C102** (the end).  After any such history, a start that is neither killed nor stopped, with a schedule as in C34, ends with the train state
of a job that was never interrupted, and with a checkpoint of it.  How often the job was killed, and where, cannot be seen in the
result. -/
theorem C102_finishes {P : Prog M σ B δ} (hP : GoodProg P) {n : Nat} (acts : List (Act M σ δ α)) (hg : GoodActs P n acts)
    (a : Attempt M σ δ α) (ha : GoodAttempt P n a) (hc : CleanPreemption a) (hk : a.kill = none) (l : Live M σ)
    (hl : restore P a.cluster (job P acts).fs = some l) (m : Nat) (hq : TrainLoop.Spec.Quiet a.env)
    (hm : TrainLoop.Spec.Compatible a.cfg m) (hper : a.cfg.checkpointPeriod ≠ 0) (hman : a.cfg.manager = true)
    (hnew : a.cfg.alreadySaved = false) (hpre : a.cfg.runEvalBeforeTraining = false) (hrel : a.cfg.relativeSteps = 0)
    (hft : P.stepOf l.m ≤ a.cfg.totalSteps) (hsort : a.cfg.checkpointSteps.Pairwise (· < ·))
    (hgood : TrainLoop.Spec.GoodSteps a.cfg.checkpointSteps (P.stepOf l.m) a.cfg.totalSteps a.cfg.checkpointPeriod
      (TrainLoop.Spec.blockLen a.cfg m)) :
    ∃ l', (job P (acts ++ [.attempt a])).live = some l' ∧ P.stepOf l'.m = a.cfg.totalSteps ∧
      l'.m = ideal P n (a.cfg.totalSteps - P.stepOf P.init) ∧
      latestStep (job P (acts ++ [.attempt a])).fs = some a.cfg.totalSteps := by
  have htot : TrainLoop.Spec.totalOf a.cfg (P.stepOf l.m) = a.cfg.totalSteps := by simp [TrainLoop.Spec.totalOf, hrel]
  obtain ⟨st, s1, s2, s3, s4, -⟩ := TrainLoop.C34_schedule_partial a.cfg a.env (P.stepOf l.m) m hq hm hper hman hnew hpre
    (by rw [htot]; exact hft) hsort (by rw [htot]; exact hgood)
  rw [htot] at s2 s3 s4
  obtain ⟨evs, k, l0, hinv, a1, a2, -, -, a5⟩ := attempt_facts hP acts hg a ha
  rw [hl] at a1
  cases a1
  have hscript : script a (P.stepOf l.m) = st.events.map toDo := by simp only [script, s1]
  obtain ⟨evs', k', l', b1, b2, b3, b4, b5⟩ := execAll_good hP a ha (script a (P.stepOf l.m)) none
    (fun r hr => script_clean a hc _ r hr) evs hinv.good k l a2
  have e0 := a5 a.kill
  have e : job P (acts ++ [.attempt a]) = _ := e0
  rw [hk] at e
  have hstep : P.stepOf l'.m = a.cfg.totalSteps := by
    have := count hP a st.events ((history evs).fs, l)
    rw [← hscript, b1, s3, List.length_range'] at this
    simp only at this
    omega
  have hlive : (job P (acts ++ [.attempt a])).live = some l' := by rw [e, b1]
  refine ⟨l', hlive, hstep, ?_, ?_⟩
  · rw [b3.m]
    have := b3.stepOf hP
    rw [show k' = a.cfg.totalSteps - P.stepOf P.init by omega]
  · have hsave : TrainLoop.Event.save a.cfg.totalSteps ∈ st.events := by
      have h1 : a.cfg.totalSteps ∈ TrainLoop.Spec.savedSteps st.events := by
        rw [s4, List.mem_filter]
        refine ⟨by simp, ?_⟩
        rw [decide_eq_true_eq]
        rcases Nat.eq_or_lt_of_le hft with h | h
        · exact Or.inl h.symm
        · exact Or.inr ⟨h, le_rfl, Or.inr (Or.inr rfl)⟩
      unfold TrainLoop.Spec.savedSteps at h1
      obtain ⟨x, hx, hx'⟩ := List.mem_filterMap.1 h1
      cases x <;> simp at hx'
      rw [← hx']
      exact hx
    obtain ⟨pre, post, hpp⟩ := List.append_of_mem hsave
    have hfaith := (TrainLoop.train_faithful a.cfg a.env (P.stepOf l.m)).1
    rw [s1] at hfaith
    obtain ⟨f1, f2⟩ := hfaith.saves pre _ post hpp
    have hkill := a5 (some (pre.length, 0))
    rw [hscript, hpp, List.map_append, List.map_cons,
      execAll_append P a _ _ _ _ (by intro i' c h; cases h; rw [List.length_map]), List.length_map] at hkill
    simp only [Option.map_some, Nat.sub_self, toDo, execAll] at hkill
    have hcount := count hP a pre ((history evs).fs, l)
    rw [f2, List.length_range'] at hcount
    obtain ⟨t, t1, t2⟩ := C102_kept hP acts hg a ha hc l hl pre.length
      (by rw [hscript, hpp]; simp [toDo]) (by intro i' c h; rw [hk] at h; cases h) _ (by rw [hkill])
    obtain ⟨l2, u1, u2⟩ := restart_bound hP acts hg a ha hc
    rw [hlive] at u1
    cases u1
    have := u2 t t2
    have ht : P.stepOf (exec1 P a (some 0) (execAll P a (pre.map toDo) none ((history evs).fs, l)) .save).2.m =
        a.cfg.totalSteps := by
      simp only [exec1]
      rw [hcount]
      simp only
      omega
    rw [ht] at t1
    rw [t2, show t = a.cfg.totalSteps by omega]

theorem lose_hosts {P : Prog M σ B δ} {n : Nat} {cl : List (Nat × Layout)} (r : Nat) {k : Nat} {l : Live M σ}
    (h : At P n k k cl l) : At P n k (k + r) cl ⟨l.m, (stepN P r l).hosts⟩ := by
  exact ⟨h.cluster, h.m, (at_stepN r h).hosts⟩

/-- **C102** (limit of the claim).  If `PreemptionError` is raised inside a block of training steps, after `a.lost` of them, the emergency
checkpoint holds the train state from before the block, but the iterators from the moment of the exception.  Unless that step had been saved before, every
restart from it goes on from that train state with the batches `a.lost` later: those of the interrupted steps are never trained on. -/
theorem C102_preempted {P : Prog M σ B δ} (hP : GoodProg P) {n : Nat} (hn : 0 < n) (acts : List (Act M σ δ α)) (hg : GoodActs P n acts)
    (a : Attempt M σ δ α) (ha : GoodAttempt P n a) (hk : a.kill = none) (l : Live M σ)
    (hl : restore P a.cluster (job P acts).fs = some l) (st : TrainLoop.St)
    (hst : TrainLoop.train a.cfg a.env (P.stepOf l.m) = .error (.preempted, st))
    (hper : a.cfg.checkpointPeriod ≠ 0) (hman : a.cfg.manager = true)
    (hnew : latestStep (job P (acts ++ [.attempt { a with kill := some (st.events.length, 0) }])).fs ≠ some st.trained)
    (cl : List (Nat × Layout)) (hcl : GoodCluster n cl) :
    ∃ l' k, restore P cl (job P (acts ++ [.attempt a])).fs = some l' ∧ Holds P n k (k + a.lost) l' ∧ P.stepOf l'.m = st.trained ∧
      latestStep (job P (acts ++ [.attempt a])).fs = some st.trained := by
  obtain ⟨evs, k, l0, hinv, a1, a2, -, a4, a5⟩ := attempt_facts hP acts hg a ha
  rw [hl] at a1
  cases a1
  have hgend := TrainLoop.train_faithful a.cfg a.env (P.stepOf l.m)
  rw [hst] at hgend
  obtain ⟨pre, hpre⟩ := hgend.2 st rfl hper hman
  have hscript : script a (P.stepOf l.m) = pre.map toDo ++ [.lose a.lost, .save] := by
    simp only [script, hst]
    rw [if_pos ⟨hper, hman⟩, hpre, List.dropLast_concat]
  have hno : ∀ r, Do.lose r ∈ pre.map toDo → r = 0 := by
    intro r hm
    obtain ⟨e, -, he⟩ := List.mem_map.1 hm
    cases e <;> cases he
  obtain ⟨evs', k', l', b1, b2, b3, b4, b5⟩ := execAll_good hP a ha (pre.map toDo) none hno evs hinv.good k l a2
  have hstep : P.stepOf l'.m = st.trained := by
    have := count hP a pre ((history evs).fs, l)
    obtain ⟨f1, f2⟩ := hgend.1.saves pre _ [] hpre
    rw [b1, f2, List.length_range'] at this
    simp only at this
    omega
  have hlen : st.events.length = pre.length + 1 := by rw [hpre]; simp
  have e5 := a5 (some (st.events.length, 0))
  rw [hscript, execAll_append P a _ _ _ _ (by intro i' c h; cases h; rw [List.length_map]; omega), b1, List.length_map, hlen] at e5
  simp only [Option.map_some] at e5
  rw [show pre.length + 1 - pre.length = 0 + 1 by omega] at e5
  simp only [execAll, exec1, executed, List.take_zero] at e5
  rw [hlen, e5] at hnew
  have hnew' : latestStep (history (evs ++ evs')).fs ≠ some st.trained := hnew
  have hbig : ∀ j ∈ (history (evs ++ evs')).log, j.step < st.trained := by
    intro j hj
    have hle : ∀ j ∈ (history (evs ++ evs')).log, j.step ≤ st.trained := by
      intro j hj
      rw [← hstep, b3.stepOf hP]
      exact old_bound hP evs evs' hinv.good k l a2 (by rw [← hinv.fs]; exact a4) k' b4 b5 j hj
    rcases Nat.lt_or_ge j.step st.trained with h | h
    · exact h
    · exfalso
      have := hle j hj
      exact hnew' ((latest_iff _ b2.1 _).2 ⟨⟨j, hj, by omega⟩, hle⟩)
  have hat := lose_hosts a.lost b3
  obtain ⟨v1, d, v2, v3⟩ := Ckpt.C20_save_visible (evs ++ evs') b2.1 a.pol a.keepDs (jobOf P a ⟨l'.m, (stepN P a.lost l').hosts⟩)
    (ha.saves _ ⟨k', b3.m⟩) none (fun c h => by cases h) (by
      intro j hj
      show j.step < P.stepOf l'.m
      rw [hstep]
      exact hbig j hj)
  have e6' := a5 a.kill
  have e6 : job P (acts ++ [.attempt a]) = _ := e6'
  rw [hk, hscript, execAll_append P a _ _ _ _ (by intro i' c h; cases h), b1] at e6
  simp only [Option.map_none, execAll] at e6
  have e7 : (job P (acts ++ [.attempt a])).fs =
      (execEv (history (evs ++ evs')) (.save a.pol a.keepDs (jobOf P a ⟨l'.m, (stepN P a.lost l').hosts⟩) none)).fs := by
    rw [e6]
    rfl
  rw [← e7] at v1 v2
  have hj : (jobOf P a ⟨l'.m, (stepN P a.lost l').hosts⟩).step = st.trained := hstep
  rw [hj] at v1 v2
  obtain ⟨l2, w1, w2, w3⟩ := restore_dir hP hat _ _ v1 d v2 v3 cl hcl
  refine ⟨l2, k', w1, at_holds hP hn w2, ?_, v1⟩
  rw [w3]
  exact hstep

end

/-- **C102** (clusters).  The layouts that `get_data_layout` computes for the processes of a mesh make a good cluster. -/
theorem C102_cluster {β H : Type} [DecidableEq β] {m : LocalChunk.Spec.Mesh β H} {l : β → Nat} {first : H → β → Nat} (hb : LocalChunk.Spec.Boxes m l first)
    {axes : List β} (hne : axes ≠ []) (hn : axes.Nodup) (hsub : ∀ a ∈ axes, a ∈ m.names) (proc : H → Nat) (batch : Option Nat)
    (hdiv : ∀ b, batch = some b → (axes.map m.shape).prod ∣ b) (lay : H → Layout)
    (hlay : ∀ h, LocalChunk.getDataLayout (LocalChunk.Spec.hostChunker m l first h) m.shape (proc h) (some axes) batch none = .ok (lay h))
    (hosts : List H) (hall : ∀ h, h ∈ hosts) (h0 : H) :
    GoodCluster (lay h0).numShards (hosts.map fun h => (proc h, lay h)) := by
  obtain ⟨a1, a2, -, -⟩ := DsCkpt.layouts hb hne hn hsub proc batch hdiv lay hlay h0
  constructor
  · intro x hx
    obtain ⟨h, -, rfl⟩ := List.mem_map.1 hx
    exact a1 h
  · intro s hs
    obtain ⟨h, h1, h2⟩ := a2 s hs
    exact ⟨_, List.mem_map.2 ⟨h, hall h, rfl⟩, h1, h2⟩

/-! ### A job that is killed twice -/

/-- The train state is the list of the batches seen; batch `k` of shard `s` is `2k + s`. -/
def demo : Prog (List (Option Nat × Option Nat)) (Nat × Nat) Nat (List (Option Nat × Option Nat)) where
  init := []
  stepOf := List.length
  step m b := m ++ [(b 0, b 1)]
  pipe := ⟨fun _ s _ => (s, 0), fun x => 2 * x.2 + x.1, fun x => (x.1, x.2 + 1)⟩
  seed := 0
  encM m := [("checkpoint".toList, m)]
  decM _ d := (PyDict.get d "checkpoint".toList).join
  encS x := [(some x.1, some x.2)]
  decS
    | [(some a, some b)] => some (a, b)
    | _ => none

theorem demo_good : GoodProg demo := by
  refine ⟨?_, ?_, ?_⟩
  · intro m b
    simp [demo]
  · intro n k s d h
    generalize ideal demo n k = m at h ⊢
    have := h "checkpoint".toList m (by simp [demo])
    show (PyDict.get d "checkpoint".toList).join = some m
    rw [this]
    rfl
  · intro s
    rfl

/-- Writes every file in two parts. -/
def twice {δ : Type} (fs : List (FName × δ)) : List (FName × Option δ) := fs.flatMap fun e => [(e.1, none), (e.1, some e.2)]

theorem twice_valid {δ : Type} (fs : List (FName × δ)) (hn : (fs.map (·.1)).Nodup) (f : FName) (x : δ) (h : (f, x) ∈ fs) :
    ((twice fs).filter (fun w => w.1 = f)).getLast? = some (f, some x) := by
  induction fs with
  | nil => cases h
  | cons e fs ih =>
    rw [List.map_cons, List.nodup_cons] at hn
    have hno : ∀ g, g ∉ fs.map (·.1) → (twice fs).filter (fun w => w.1 = g) = [] := by
      intro g hg
      rw [List.filter_eq_nil_iff]
      intro w hw
      unfold twice at hw
      obtain ⟨y, hy, hw⟩ := List.mem_flatMap.1 hw
      have : w.1 = y.1 := by
        simp only [List.mem_cons, List.not_mem_nil, or_false] at hw
        rcases hw with rfl | rfl <;> rfl
      simp only [decide_eq_true_eq, this]
      rintro rfl
      exact hg (List.mem_map.2 ⟨y, hy, rfl⟩)
    have e1 : twice (e :: fs) = [(e.1, none), (e.1, some e.2)] ++ twice fs := rfl
    rw [e1, List.filter_append, List.getLast?_append]
    rcases List.mem_cons.1 h with h | h
    · subst h
      rw [hno f hn.1]
      simp
    · rw [ih hn.2 h]
      rfl

theorem ds_keys {σ : Type} (hosts : List (Host σ)) : ∀ fs : Files σ, PyDict.WF fs → (∀ k ∈ PyDict.keys fs, ∃ l, k = dsName l) →
    PyDict.WF (hosts.foldl DsCkpt.save1 fs) ∧ ∀ k ∈ PyDict.keys (hosts.foldl DsCkpt.save1 fs), ∃ l, k = dsName l := by
  induction hosts with
  | nil => intro fs h1 h2; exact ⟨h1, h2⟩
  | cons h hosts ih =>
    intro fs h1 h2
    rw [List.foldl_cons]
    apply ih
    · unfold DsCkpt.save1
      split_ifs
      · cases h.it with
        | none => exact h1
        | some s => exact PyDict.wf_set _ h1 _ _
      · exact h1
    · unfold DsCkpt.save1
      split_ifs
      · cases h.it with
        | none => exact h2
        | some s =>
          intro k hk
          rw [DsCkpt.write, ← PyDict.get_isSome_iff, PyDict.get_set] at hk
          split_ifs at hk with h3
          · exact ⟨_, h3.symm⟩
          · exact h2 k ((PyDict.get_isSome_iff _ _).1 hk)
      · exact h2

theorem dsName_head (l : Layout) : (dsName l).head? = some 't' := rfl

theorem demo_files (l : Live (List (Option Nat × Option Nat)) (Nat × Nat)) :
    ((filesOf demo l).map (·.1)).Nodup ∧ ∀ f ∈ (filesOf demo l).map (·.1), f ≠ Ckpt.pinnedFile := by
  obtain ⟨h1, h2⟩ := ds_keys l.hosts [] (by simp [PyDict.WF, PyDict.keys]) (by simp [PyDict.keys])
  have e : (filesOf demo l).map (·.1) = "checkpoint".toList :: PyDict.keys (DsCkpt.save l.hosts) := by
    simp [filesOf, demo, PyDict.keys, Function.comp_def]
  rw [e]
  constructor
  · rw [List.nodup_cons]
    refine ⟨?_, h1⟩
    intro hm
    obtain ⟨y, hy⟩ := h2 _ hm
    have := dsName_head y
    rw [← hy] at this
    exact absurd this (by decide)
  · intro f hf
    rcases List.mem_cons.1 hf with rfl | hf
    · decide
    · obtain ⟨y, rfl⟩ := h2 _ hf
      intro hy
      have := dsName_head y
      rw [hy] at this
      exact absurd this (by decide)

/-- Three processes, two of which read shard 0 (`big`), or two processes. -/
def demoCluster (big : Bool) : List (Nat × Layout) :=
  if big then [(0, ⟨some 2, 0, 2, true⟩), (1, ⟨some 2, 0, 2, false⟩), (2, ⟨some 2, 1, 2, true⟩)]
  else [(0, ⟨some 2, 1, 2, true⟩), (1, ⟨some 2, 0, 2, true⟩)]

theorem demoCluster_good (big : Bool) : GoodCluster 2 (demoCluster big) := by
  cases big <;> exact ⟨by decide, by decide⟩

/-- A start on one of the clusters. -/
def demoAttempt (big : Bool) (period : Nat) (keep : Option Nat) (kill : Option (Nat × Nat)) :
    Attempt (List (Option Nat × Option Nat)) (Nat × Nat) (List (Option Nat × Option Nat)) Bool where
  cluster := demoCluster big
  cfg := { totalSteps := 6, checkpointPeriod := period }
  pol := .newest keep
  keepDs := some 1
  stamp := fun s => s + 100
  plan := twice
  kill := kill

theorem demoAttempt_good (big : Bool) (period : Nat) (keep : Option Nat) (kill : Option (Nat × Nat)) :
    GoodAttempt demo 2 (demoAttempt big period keep kill) := by
  refine ⟨demoCluster_good big, ?_⟩
  · intro l _
    obtain ⟨h1, h2⟩ := demo_files l
    refine ⟨fun f x hf => twice_valid _ h1 f x hf, ?_⟩
    intro w hw
    have hw' : w ∈ twice (filesOf demo l) := hw
    unfold twice at hw'
    obtain ⟨y, hy, hw⟩ := List.mem_flatMap.1 hw'
    have : w.1 = y.1 := by
      simp only [List.mem_cons, List.not_mem_nil, or_false] at hw
      rcases hw with rfl | rfl <;> rfl
    rw [this]
    exact h2 _ (List.mem_map.2 ⟨y, hy, rfl⟩)

/-- Killed while it writes the checkpoint of step 4; then, on another cluster with another period, after the rename of the checkpoint of step 5,
while it removes old ones; then while it trains. -/
def demoActs : List (Act (List (Option Nat × Option Nat)) (Nat × Nat) (List (Option Nat × Option Nat)) Bool) :=
  [.attempt (demoAttempt true 2 none (some (4, 3))), .pin 0, .attempt (demoAttempt false 3 (some 1) (some (2, 9))),
    .attempt (demoAttempt true 2 (some 1) (some (1, 1)))]

theorem demoActs_good : GoodActs demo 2 demoActs := by
  intro a ha
  simp only [demoActs, List.mem_cons, List.not_mem_nil, or_false, Act.attempt.injEq, reduceCtorEq, false_or] at ha
  rcases ha with rfl | rfl | rfl <;> exact ⟨demoAttempt_good _ _ _ _, fun _ _ _ => rfl⟩

/-- The three attempts reach steps 4, 5 and 6, and leave the checkpoints 2, 5 and 5 as the latest ones. -/
example : ((demoActs.inits.map (job demo)).map fun w => (w.live.map fun l => l.m.length, latestStep w.fs)) =
    [(none, none), (some 4, some 2), (some 4, some 2), (some 5, some 5), (some 6, some 5)] := by
  decide +kernel

/-- A last start that is not killed ends with the batches in order, each once. -/
example : ((job demo (demoActs ++ [.attempt (demoAttempt false 2 none none)])).live.map fun l => l.m) =
    some ((List.range 6).map fun k => (some (2 * k), some (2 * k + 1))) := by
  decide +kernel

example : ∃ l', (job demo (demoActs ++ [.attempt (demoAttempt false 2 none none)])).live = some l' ∧ demo.stepOf l'.m = 6 ∧
    l'.m = ideal demo 2 6 ∧ latestStep (job demo (demoActs ++ [.attempt (demoAttempt false 2 none none)])).fs = some 6 := by
  obtain ⟨⟨l, k, h1, h2, -, h4⟩, -⟩ := C102_restart demo_good (by decide) demoActs demoActs_good
    (demoAttempt false 2 none none) (demoAttempt_good _ _ _ _) (fun _ _ _ => rfl)
  have h5 : latestStep (job demo demoActs).fs = some 5 := by decide +kernel
  have h6 : demo.stepOf l.m = 5 := by rw [h2.2.1]; exact (h4 5 h5).symm
  refine C102_finishes demo_good demoActs demoActs_good (demoAttempt false 2 none none) (demoAttempt_good _ _ _ _)
    (fun _ _ _ => rfl) rfl l h1 2 ⟨fun _ => rfl, fun _ => rfl, fun _ => rfl, fun _ => rfl⟩ ?_ ?_ rfl rfl rfl rfl ?_ ?_ ?_
  · exact ⟨by decide, Or.inr (Or.inl rfl), by decide, by decide, by decide⟩
  · decide
  · rw [h6]; decide
  · exact List.Pairwise.nil
  · exact ⟨fun s h => (by cases h), fun pre s s' post h => (by simp [demoAttempt] at h)⟩

/-- A start that is preempted in the block that begins at step 1, after one step of it. -/
def demoPreempted : Attempt (List (Option Nat × Option Nat)) (Nat × Nat) (List (Option Nat × Option Nat)) Bool :=
  { demoAttempt false 2 none none with
    cfg := { totalSteps := 6, checkpointPeriod := 2, statsPeriod := 1 }
    env := { preempt := fun s => s = 1 }
    lost := 1 }

/-- The emergency checkpoint of step 1 goes on with batch 2: batch 1 is never seen. -/
example : ∃ l' k, restore demo (demoAttempt true 2 none none).cluster (job demo [.attempt demoPreempted]).fs = some l' ∧
    Holds demo 2 k (k + 1) l' ∧ demo.stepOf l'.m = 1 := by
  have hga : GoodAttempt demo 2 demoPreempted :=
    ⟨(demoAttempt_good false 2 none none).cluster, (demoAttempt_good false 2 none none).saves⟩
  have hr : restore demo demoPreempted.cluster (job demo ([] : List (Act _ _ _ Bool))).fs = some (fresh demo demoPreempted.cluster) := rfl
  obtain ⟨l', k, h1, h2, h3, -⟩ := C102_preempted demo_good (by decide) [] (fun a ha => by cases ha) demoPreempted hga rfl _ hr
    ⟨1, 1, 0, false, [.save 0, .train 0 1, .save 1]⟩ rfl (by decide) rfl (by decide +kernel)
    (demoAttempt true 2 none none).cluster (demoAttempt_good true 2 none none).cluster
  exact ⟨l', k, h1, h2, h3⟩

example : ((job demo [.attempt demoPreempted, .attempt (demoAttempt true 2 none none)]).live.map fun l => l.m) =
    some ([0, 2, 3, 4, 5, 6].map fun k => (some (2 * k), some (2 * k + 1))) := by
  decide +kernel

end Verif.TrainJob
