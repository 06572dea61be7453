import Verif.Props.AdafactorJob
import Verif.Props.TrainInfer
/-
C128 with C127: the inference job reads the parameters that Adafactor has computed.
-/
namespace Verif.AdafactorJob
open Verif Verif.StateDict Verif.Adafactor Verif.ND
open Verif.SaveRestore (mapL)
open Verif.TrainState (TState)
open Verif.TrainedJob (comp)
open Verif.TrainedJob.Spec (batches)
open Verif.JobFiles (Store Content prog)
open Verif.JobFiles.Spec (Fine Tmp History)
open Verif.TsPath (Str)
open Verif.Ckpt (ckptName pathJoin latestStep)
open Verif.TrainInfer (Reader latest)
open Verif.TrainInfer.Spec (Suits castAll)
open Spec

variable {T Mu : Type} [DecidableEq T] {α : Type} [LinearOrder α] [BoundedOrder α] {R Row σ B : Type} {A : Optimizer} {p0 : Dict (NDArray ℝ)} {o0 : Dict (PState ℝ)}
variable {c : Store (Arr T) T} {L : Layout T Mu} {u : TState (Option (Arr T))} {tr : Train.Cfg ℝ (Dict (NDArray ℝ)) Grads (Dict (PState ℝ)) Mu R Row}
  {mu0 : Option Mu} {pipe : DsCkpt.Pipe σ B} {seed : Nat} {glue : (Nat → Option B) → Train.Batch Row} {r : Reader (Arr T) T}

theorem decP_castAll (L : Layout T Mu) (dflt u16 : T) (dtype : Option T) (p : Dict (NDArray ℝ)) :
    decP (castAll (arrOps dflt u16) dtype (encP L p)) = some p := by
  unfold castAll encP
  generalize ([] : List Key) = pre
  suffices h : ∀ pre', decP (mapL (fun _ x => x.map (SaveRestore.Spec.conv (arrOps dflt u16) dtype)) pre'
      (mapL (fun k x => some (⟨L.param k, .inl x⟩ : Arr T)) pre p)) = some p from h pre
  induction p generalizing pre with
  | nil => intro _; rfl
  | leaf k x r ih =>
    intro pre'
    have := ih pre pre'
    cases dtype <;> simp only [mapL, Option.map_some, SaveRestore.Spec.conv, arrOps, decP] at this ⊢ <;> rw [this] <;> rfl
  | sub k d r ihd ih =>
    intro pre'
    simp only [mapL, decP, ih, ihd]

/-- The dtypes of all leaves, by name. -/
def dtypes (d : Dict (Option (Arr T))) : Dict (Option T) := mapL (fun _ x => x.map Arr.dtype) [] d

theorem dtypes_castAll (L : Layout T Mu) (dflt u16 : T) (dtype : Option T) (p : Dict (NDArray ℝ)) :
    dtypes (castAll (arrOps dflt u16) dtype (encP L p)) = mapL (fun k _ => some (dtype.getD (L.param k))) [] p := by
  unfold castAll encP dtypes
  suffices h : ∀ pre pre' pre'', mapL (fun _ x => x.map Arr.dtype) pre'' (mapL (fun _ x => x.map (SaveRestore.Spec.conv (arrOps dflt u16) dtype)) pre'
      (mapL (fun k x => some (⟨L.param k, .inl x⟩ : Arr T)) pre p)) = mapL (fun k _ => some (dtype.getD (L.param k))) pre p from h [] [] []
  induction p with
  | nil => intros; rfl
  | leaf k x r ih => intro pre pre' pre''; cases dtype <;> simp only [mapL, ih] <;> rfl
  | sub k d r ihd ih => intro pre pre' pre''; simp only [mapL, ih, ihd]

/-- **C128** (inference).  A job that trains with Adafactor is started, killed and restarted; then an inference job restores its latest checkpoint, of step `N`,
without an optimizer.  It has the parameters that `Trainer` computes from the initial ones with the first `N - n0` batches, no entry more or less, in the dtype
asked for, and otherwise in the dtypes they were trained in. -/
theorem C128_inference (hc : Fine c) (h : Prepared c L A u tr p0 o0 mu0) (n0 : Nat) {tmp : Str} (ht : Tmp c tmp) {n : Nat}
    (hrun : ∀ k, ∃ s, Train.Spec.run (Train.trainStep tr) ⟨n0, p0, o0, mu0⟩ (batches pipe seed glue n k) = .ok s) (hr : Suits c u r)
    (acts : List (TrainJob.Act (Train.State (Dict (NDArray ℝ)) (Dict (PState ℝ)) Mu) σ (Content (Arr T) T σ) α)) (hh : History n acts) (N : Nat)
    (hs : latestStep (TrainJob.job (prog c (comp .plain u (codec L) tr ⟨n0, p0, o0, mu0⟩ pipe seed glue) tmp) acts).fs = some N) (loc : Str)
    (hloc : TsPath.Spec.Dir (pathJoin loc (ckptName N))) :
    ∃ k s t, N = n0 + k ∧ Train.Spec.run (Train.trainStep tr) ⟨n0, p0, o0, mu0⟩ (batches pipe seed glue n k) = .ok s ∧
      latest r loc (TrainJob.job (prog c (comp .plain u (codec L) tr ⟨n0, p0, o0, mu0⟩ pipe seed glue) tmp) acts).fs = some t ∧
      decP t.params = some s.params ∧ dtypes t.params = mapL (fun k _ => some (r.dtype.getD (L.param k))) [] s.params ∧ SameParams s.params p0 := by
  obtain ⟨k, s, h1, h2, h3⟩ := TrainInfer.C127_restore hc (C128_keeps h n0) (C128_codec L h.layout) hr ht hrun acts hh N hs loc hloc
  obtain ⟨dflt, u16, hO⟩ := h.ops
  rw [hO] at h3
  exact ⟨k, s, _, h1, h2, h3, decP_castAll L dflt u16 _ _, dtypes_castAll L dflt u16 _ _, (C128_run h n0 _ _ h2).2.1⟩

/-! ### Example -/

def exReader : Reader (Arr Nat) Nat where
  O := arrOps 2 3
  dtype := some 1
  onDevices := true
  dir := "/n".toList
  axes := fun _ => true
  like_ := ⟨some ⟨5, .inr 7⟩, encP exL (exP 0 0), none, [], none⟩

theorem exReader_suits (x y : ℝ) : Suits (exStore x y) (exU x y) exReader where
  ops := rfl
  params := ⟨rfl, rfl, rfl, ⟨rfl, rfl, trivial⟩, trivial⟩
  step := rfl
  mutables := .nil
  names := by
    simp only [exReader, exP, encP, mapL, TrainState.iStateDict, TrainedJob.whole, TrainState.optState, TrainState.orNone, List.isEmpty_nil, if_true,
      Fallback.Spec.Ordinary]
    repeat' (first | exact trivial | refine And.intro ?_ ?_ | decide | simp [Dict.keys])
  full := by simp [exReader, exP, encP, mapL, TrainState.iStateDict, TrainedJob.whole, TrainState.orNone, Fallback.Full]
  axes _ _ := .inl rfl

/-- The job is killed twice, and its files are copied; parameters are read as bfloat16 (1). -/
example (x y : ℝ) (N : Nat) (hN : latestStep (TrainJob.job (prog (exStore x y) (comp .plain (exU x y) (codec exL) exTr ⟨0, exP x y, exO, none⟩ TrainedJob.exPipe 0
      TrainedJob.exGlue) TrainedJob.exTmp) (TrainedJob.exActs _ _)).fs = some N) (hloc : TsPath.Spec.Dir (pathJoin "gs://b".toList (ckptName N))) :
    ∃ k s t, N = 0 + k ∧ Train.Spec.run (Train.trainStep exTr) ⟨0, exP x y, exO, none⟩ (batches TrainedJob.exPipe 0 TrainedJob.exGlue 2 k) = .ok s ∧
      latest exReader "gs://b".toList (TrainJob.job (prog (exStore x y) (comp .plain (exU x y) (codec exL) exTr ⟨0, exP x y, exO, none⟩ TrainedJob.exPipe 0
        TrainedJob.exGlue) TrainedJob.exTmp) (TrainedJob.exActs _ _)).fs = some t ∧
      decP t.params = some s.params ∧ dtypes t.params = mapL (fun _ _ => some 1) [] s.params ∧ SameParams s.params (exP x y) :=
  C128_inference (exFine x y) (exPrepared x y) 0
    ⟨fun h => absurd h (by decide), show TsPath.gsPrefix.isPrefixOf "/m".toList = TsPath.gsPrefix.isPrefixOf TrainedJob.exTmp by decide⟩
    (exRun x y) (exReader_suits x y) (TrainedJob.exActs _ _) (TrainedJob.exActs_ok _) N hN _ hloc

end Verif.AdafactorJob
