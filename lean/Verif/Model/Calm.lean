import Verif.Common
import Verif.Model.Sampling
import Mathlib.Analysis.SpecialFunctions.Exp
import Mathlib.Data.List.Sort
/-
Early exit decoding, `/repo/t5x/contrib/calm/models.py` (lines 177-235 and 539-856) and the records kept by the sampling loop of
`/repo/t5x/contrib/calm/decoding.py` (lines 480-481, 596, 656-657).

The network is not part of the repository.  What is used of it are parameters: `layer i` takes the hidden state of the batch and the cache of
layer `i` and gives the new ones, `prop i` only updates the cache of layer `i` from a hidden state (`only_propagate_state`), `logits` is
`compute_logits`.  `decode(start_idx, end_idx)` runs the layers `start_idx ≤ i < end_idx` one after the other.

Simplifications: `oracle_tok_noisy_cache` is not modelled.  The confidences of the batch are a list, with one entry for each example.
-/
namespace Verif.Calm

/-- What is used of the network; `H` hidden states, `C` the cache of one layer, `G` logits.  `conf none h` are the confidences at the first exit,
`conf (some g) h` those at a later one, where `g` is the hidden state at the exit before (`get_pred_confidence`). -/
structure Net (H C G : Type) where
  numLayers : Nat
  layer : Nat → H → C → H × C
  prop : Nat → H → C → C
  logits : H → G
  conf : Option H → H → List ℝ

/-- Settings, lines 121-150. -/
structure Cfg where
  threshold : ℝ
  minExit : Nat
  firstExit : Nat
  exitInterval : Nat

variable {H C G : Type}

/-- Replace one entry. -/
def upd (c : Nat → C) (i : Nat) (x : C) : Nat → C := fun j => if j = i then x else c j

/-- `decode` of `n` layers from layer `a` on. -/
def runLayers (M : Net H C G) : Nat → Nat → H → (Nat → C) → H × (Nat → C)
  | 0, _, h, c => (h, c)
  | n + 1, a, h, c => runLayers M n (a + 1) (M.layer a h (c a)).1 (upd c a (M.layer a h (c a)).2)

/-- `decode` with `only_propagate_state=True` of `n` layers from layer `a` on: every layer gets the same hidden state. -/
def propLayers (M : Net H C G) : Nat → Nat → H → (Nat → C) → (Nat → C)
  | 0, _, _, c => c
  | n + 1, a, h, c => propLayers M n (a + 1) h (upd c a (M.prop a h (c a)))

/-- Python's `range(a, b, s)` for positive `s`. -/
def pyRange (a b s : Nat) : List Nat := (List.range ((b - a + s - 1) / s)).map fun k => a + s * k

/-- Line 576. -/
def keepInds (cfg : Cfg) (L : Nat) : List Nat := pyRange (cfg.firstExit + 1) L cfg.exitInterval

/-- Lines 577-579. -/
def compIntervals (cfg : Cfg) (L : Nat) : List (Nat × Nat) :=
  (0, cfg.firstExit + 1) :: (keepInds cfg L).zip ((keepInds cfg L).drop 1 ++ [L])

/-- The part of the loop state that is used, lines 699-707. -/
structure State (H C : Type) where
  hidden : H
  cache : Nat → C
  conf : List ℝ
  interval : Nat
  layer : Int

/-- `lax.switch`: the index is clamped. -/
def switch {α : Type} (branches : List α) (i : Nat) : Option α := branches[min i (branches.length - 1)]?

/-- Lines 710-761. -/
def body (M : Net H C G) (cfg : Cfg) (s : State H C) : State H C :=
  let seg := (switch (compIntervals cfg M.numLayers) s.interval).getD (0, 0)
  let r := runLayers M (seg.2 - seg.1) seg.1 s.hidden s.cache
  ⟨r.1, r.2, M.conf (some s.hidden) r.1, s.interval + 1, min (s.layer + cfg.exitInterval) M.numLayers⟩

/-- Lines 764-789 without `oracle_tok_consistency`; the minimum of the confidences is below the threshold if one of them is. -/
noncomputable def cond (M : Net H C G) (cfg : Cfg) (s : State H C) : Bool :=
  (s.conf.any (fun x => decide (x < cfg.threshold)) && decide (s.layer < M.numLayers)) || decide (s.layer < (cfg.minExit : Int))

/-- `lax.while_loop`; `none` if the loop has not ended after `fuel` iterations. -/
def while_ {S : Type} (cond : S → Bool) (body : S → S) : Nat → S → Option S
  | 0, s => if cond s then none else some s
  | n + 1, s => if cond s then while_ cond body n (body s) else some s

/-- Lines 581-621 and 699-707: run the decoder up to the first exit. -/
def initState (M : Net H C G) (cfg : Cfg) (h0 : H) (c : Nat → C) : State H C :=
  let r := runLayers M (cfg.firstExit + 1) 0 h0 c
  ⟨r.1, r.2, M.conf none r.1, 1, cfg.firstExit + 1⟩

/-- Lines 829-845.  The hidden state is that of line 582. -/
def propagate (M : Net H C G) (cfg : Cfg) (h : H) (interval : Nat) (c : Nat → C) : Nat → C :=
  let ivs := compIntervals cfg M.numLayers
  let last := (ivs.getLast?.getD (0, 0)).2
  let seg := (switch (ivs.map (fun iv => (iv.1, M.numLayers)) ++ [(last, last)]) interval).getD (0, 0)
  propLayers M (seg.2 - seg.1) seg.1 h c

/-- What `_compute_logits_from_slice_early_exit` returns. -/
structure Out (C G : Type) where
  logits : G
  cache : Nat → C
  conf : List ℝ
  layer : Int

/-- `_compute_logits_from_slice_early_exit`, lines 539-856, with an arbitrary loop condition. -/
def earlyExitWith (M : Net H C G) (cfg : Cfg) (cnd : State H C → Bool) (fuel : Nat) (h0 : H) (c : Nat → C) : Option (Out C G) :=
  (while_ cnd (body M cfg) fuel (initState M cfg h0 c)).map fun s =>
    ⟨M.logits s.hidden, propagate M cfg (initState M cfg h0 c).hidden s.interval s.cache, s.conf, s.layer⟩

/-- Without oracles. -/
noncomputable def earlyExit (M : Net H C G) (cfg : Cfg) (fuel : Nat) (h0 : H) (c : Nat → C) : Option (Out C G) :=
  earlyExitWith M cfg (cond M cfg) fuel h0 c

/-- `oracle_tok_consistency`, lines 555-573 and 779-782: continue while the prediction differs from that of all layers.  `argmax` is over all
the logits of the call. -/
def oracleTok {T : Type} [DecidableEq T] (M : Net H C G) (cfg : Cfg) (argmax : G → T) (fuel : Nat) (h0 : H) (c : Nat → C) : Option (Out C G) :=
  let full := argmax (M.logits (runLayers M M.numLayers 0 h0 c).1)
  earlyExitWith M cfg (fun s => decide (argmax (M.logits s.hidden) ≠ full) && decide (s.layer < M.numLayers)) fuel h0 c

/-- `oracle_cache`, lines 811-828: after the exit, run the remaining layers. -/
noncomputable def oracleCache (M : Net H C G) (cfg : Cfg) (fuel : Nat) (h0 : H) (c : Nat → C) : Option (Out C G) :=
  match while_ (cond M cfg) (body M cfg) fuel (initState M cfg h0 c) with
  | none => none
  | some s =>
    (while_ (fun s => decide (s.layer < (M.numLayers : Int) - 1)) (body M cfg) fuel { s with layer := s.layer - cfg.exitInterval }).map fun t =>
      ⟨M.logits s.hidden, t.cache, s.conf, s.layer⟩

/-- `position_adjusted_threshold`, lines 765-775.  The argument `pos` keeps its default 0: `predict_batch_with_aux` (lines 957-964) does not
bind it and the sampling loop (decoding.py line 525) does not pass it. -/
noncomputable def positionThreshold (threshold temp : ℝ) (maxLen : Nat) (pos : Nat) : ℝ :=
  threshold * Real.exp (-temp * pos / maxLen) / 10 + 9 * threshold / 10

/-- `nn.softmax`. -/
noncomputable def softmax (x : List ℝ) : List ℝ := x.map fun a => Real.exp a / (x.map Real.exp).sum

/-- `get_pred_confidence` with `softmax_diff`, lines 198-204, for one example. -/
noncomputable def softmaxDiff (x : List ℝ) : ℝ :=
  let p := softmax (x.mergeSort (fun a b => decide (b ≤ a)))
  p.getD 0 0 - p.getD 1 0

/-- `softmax_max`, lines 213-216, for one example. -/
noncomputable def softmaxMax (x : List ℝ) : ℝ := (softmax x).foldl max 0

/-- decoding.py lines 656-657, `table.at[:, i].set(v)` with one index and one value for each row: every row gets its value in the columns of
all the indices; indices out of range are dropped. -/
def record {α : Type} (table : List (List α)) (idx : List Nat) (v : List α) : List (List α) :=
  List.zipWith (fun row x => idx.foldl (fun r j => r.set j x) row) table v

/-- What the loop of the sampler keeps besides the rows: the model's own state, confidences and exits. -/
structure Records (σ : Type) where
  model : σ
  conf : List (List ℝ)
  exits : List (List Int)

/-- Lines 511-586 and 656-657 of decoding.py: call the model, choose tokens, and record the confidence of every row and the layer of exit.
`call` gives the new state of the model, the choice for every row, the confidences and the layer. -/
def calmNext {σ P : Type} (call : Sampling.St σ P → (σ × (Nat → Int × P)) × List ℝ × Int) (s : Sampling.St (Records σ) P) :
    Records σ × (Nat → Int × P) :=
  let r := call ⟨s.rows, s.aux.model⟩
  let idx := s.rows.map fun row => min row.curIndex row.maxLen
  (⟨r.1.1, record s.aux.conf idx r.2.1, record s.aux.exits idx (List.replicate s.rows.length r.2.2)⟩, r.1.2)

/-- `_temperature_sample_single_trial`, decoding.py lines 390-683: decodes and log-probabilities, confidences and exits.  The tables start
with -1 (lines 480-481); `n` is the length of the inputs. -/
def calmSample {σ P : Type} [AddCommMonoid P] (eos : Int) (call : Sampling.St σ P → (σ × (Nat → Int × P)) × List ℝ × Int) (fuel n : Nat)
    (inps : List Sampling.Inp) (model : σ) : List (List Int × P) × List (List ℝ) × List (List Int) :=
  let s := Sampling.loop eos (calmNext call) fuel (Sampling.initSt eos inps
    ⟨model, List.replicate inps.length (List.replicate n (-1)), List.replicate inps.length (List.replicate n (-1))⟩)
  (s.rows.map Sampling.output, s.aux.conf, s.aux.exits)

end Verif.Calm
