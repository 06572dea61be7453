import Verif.Lemmas.ArrayT5
import Verif.Props.T5Decode
/-
Property C105: the network as it is written, on arrays with a batch dimension, computes in every row of the batch exactly the network of
that row, in training and in cached decoding.
-/
namespace Verif.ArrT5
open Verif.ND Verif.Arr Verif.ArrT5.Spec

variable {B B' n m d h e f V : Nat} {cfg : Config} {p : Params} {net : Transformer.Net d h e f V} {ex : ℝ → ℝ} {lg : ℕ → ℝ}

/-- C105: `DenseGeneral` over the last axes of an array of any rank is the product of the inputs, with the contracted dimensions flattened, and
the 2-D kernel; the columns are the flattened feature dimensions. -/
theorem C105_dense (lead con feat : List Nat) (kernel inputs : NDArray ℝ) (hi : inputs.shape = lead ++ con)
    (hk : kernel.shape = [con.prod, feat.prod]) :
    ∃ r, denseGeneral feat ((List.range con.length).map fun j : Nat => (j : Int) - con.length) kernel inputs = some r ∧ r.shape = lead ++ feat ∧
      ∀ l g, l.length = lead.length → InBox feat g →
        r.get (l ++ g) = ∑ j ∈ Finset.range con.prod, inputs.get (l ++ unravel con j) * kernel.get [j, ravel feat g] :=
  dense_flat lead con feat kernel inputs hi hk

/-- A kernel stored with another shape is refused. -/
theorem C105_dense_shape (lead con feat : List Nat) (kernel inputs : NDArray ℝ) (hi : inputs.shape = lead ++ con)
    (hk : kernel.shape ≠ [con.prod, feat.prod]) :
    denseGeneral feat ((List.range con.length).map fun j : Nat => (j : Int) - con.length) kernel inputs = none := by
  have := normAxes_lastAxes lead.length con.length
  unfold lastAxes at this
  simp only [denseGeneral, hi, List.length_append, this, Option.bind_some, sizes_range'_append, if_neg hk]

/-! ### Every set of parameter arrays is a network -/

theorem holds1_of_shape {a : NDArray ℝ} {d : Nat} (h : a.shape = [d]) : Holds1 a fun i : Fin d => a.get [i.val] := ⟨h, fun _ => rfl⟩
theorem holds2_of_shape {a : NDArray ℝ} {m n : Nat} (h : a.shape = [m, n]) : Holds2 a fun (i : Fin m) (j : Fin n) => a.get [i.val, j.val] :=
  ⟨h, fun _ _ => rfl⟩

/-- C105: for parameter arrays of the right shapes there is a network whose parameters they hold. -/
theorem C105_params (hs : Shapes cfg d p) :
    ∃ net : Transformer.Net d cfg.numHeads cfg.headDim cfg.mlpDim cfg.vocabSize, ParamsAre cfg p net := by
  let attn : Attn → Transformer.Attn d cfg.numHeads cfg.headDim := fun a =>
    ⟨fun i j => a.query.get [i.val, j.val], fun i j => a.key.get [i.val, j.val], fun i j => a.value.get [i.val, j.val],
      fun i j => a.out.get [i.val, j.val]⟩
  let ker : (ℝ → ℝ) × NDArray ℝ → (ℝ → ℝ) × Transformer.Kernel d cfg.mlpDim := fun u => (u.1, fun i j => u.2.get [i.val, j.val])
  let mlp : Mlp → Transformer.Mlp d cfg.mlpDim := fun a => ⟨ker a.first, a.others.map ker, fun i j => a.wo.get [i.val, j.val]⟩
  have hattn : ∀ a, AttnShapes cfg d a → AttnIs a (attn a) := fun a ha =>
    ⟨holds2_of_shape ha.query, holds2_of_shape ha.key, holds2_of_shape ha.value, holds2_of_shape ha.out⟩
  have hmlp : ∀ a, MlpShapes cfg d a → MlpIs a (mlp a) := by
    intro a ha
    refine ⟨⟨rfl, holds2_of_shape ha.first⟩, ?_, holds2_of_shape ha.wo⟩
    rw [List.forall₂_map_right_iff, List.forall₂_same]
    exact fun u hu => ⟨rfl, holds2_of_shape (ha.others u hu)⟩
  refine ⟨⟨cfg.eps, fun i j => p.table.get [i.val, j.val], fun hd v => p.encRel.get [hd.val, v.toNat],
    p.enc.map fun l => ⟨fun i => l.preAttention.get [i.val], attn l.attention, fun i => l.preMlp.get [i.val], mlp l.mlp⟩,
    fun i => p.encNorm.get [i.val], fun hd v => p.decRel.get [hd.val, v.toNat],
    p.dec.map fun l => ⟨fun i => l.preSelf.get [i.val], attn l.self, fun i => l.preCross.get [i.val], attn l.cross,
      fun i => l.preMlp.get [i.val], mlp l.mlp⟩,
    fun i => p.decNorm.get [i.val],
    p.logitsDense.elim .viaEmbedding fun k => .denseKernel fun i j => k.get [i.val, j.val]⟩, ?_⟩
  refine ⟨rfl, rfl, rfl, rfl, rfl, holds2_of_shape hs.table, ⟨hs.encRel, fun hd v => by simp⟩, ?_, holds1_of_shape hs.encNorm,
    ⟨hs.decRel, fun hd v => by simp⟩, ?_, holds1_of_shape hs.decNorm, ?_⟩
  · rw [List.forall₂_map_right_iff, List.forall₂_same]
    intro l hl
    obtain ⟨h1, h2, h3, h4⟩ := hs.enc l hl
    exact ⟨holds1_of_shape h1, hattn _ h2, holds1_of_shape h3, hmlp _ h4⟩
  · rw [List.forall₂_map_right_iff, List.forall₂_same]
    intro l hl
    obtain ⟨h1, h2, h3, h4, h5, h6⟩ := hs.dec l hl
    exact ⟨holds1_of_shape h1, hattn _ h2, holds1_of_shape h3, hattn _ h4, holds1_of_shape h5, hmlp _ h6⟩
  · cases hk : p.logitsDense with
    | none => exact .viaEmbedding
    | some k => exact .dense (holds2_of_shape (hs.head k hk))

/-! ### Training, evaluation and scoring -/

/-- C105: the model applied to a batch returns an array of shape [batch, length, vocab] whose row `b` is what the network computes for
row `b` of the batch alone. -/
theorem C105_apply (hp : ParamsAre cfg p net) {a : Batch} {rows : Fin B → Transformer.Input n m} (hb : BatchIs a rows)
    (hseg : a.encSeg ≠ none → a.decSeg ≠ none) :
    ∃ logits Y, apply ex lg cfg p a = some logits ∧ Holds3 logits Y ∧ ∀ b, Transformer.apply ex lg net (rows b) = some (Y b) := by
  obtain ⟨es, he1, he2⟩ := hb.encSeg
  obtain ⟨ds, hd1, hd2⟩ := hb.decSeg
  obtain ⟨em, EM, h1, h2, h3⟩ := encoderMask_4 hb.encTokens he1
  obtain ⟨dm, DM, h4, h5, h6⟩ := decoderMask_4 hb.decTargets hd1
  obtain ⟨enc, h7, h8⟩ := encoder_3 ex lg hp hb.encTokens (mask := some em) (M := some EM) (.some h2)
  have hl : a.encTokens.shape.length = 2 := by simp [hb.encTokens.1]
  have hcross : ∃ (cm : NDArray Int) (CM : Fin B → Fin n → Fin m → Int), crossMask a = some (some cm) ∧ (Holds4 cm fun b (_ : Fin 1) i j => CM b i j) ∧
      ∀ b, Masks.makeEncoderDecoderMask (rows b).decTargets (rows b).encTokens (ds.map fun y => y b) (es.map fun y => y b) =
        some (CM b) := by
    obtain ⟨c, hc, h9⟩ := mask_4 (map_2 (fun t : Int => Masks.ofBool (t > 0)) hb.decTargets)
      (map_2 (fun t : Int => Masks.ofBool (t > 0)) hb.encTokens) Masks.multiply
    unfold crossMask
    rw [hc]
    generalize a.encSeg = E at he1 hseg
    generalize a.decSeg = D at hd1 hseg
    rcases he1 with @⟨s, y, hs⟩ | _
    · rcases hd1 with @⟨s', y', hs'⟩ | _
      · obtain ⟨c', hc', h10⟩ := mask_4 hs' hs Masks.equal
        obtain ⟨r, hr, h11⟩ := combine_2 h9 h10
        exact ⟨r, _, by simp only [Option.bind_some, hc', hr], h11, fun b => rfl⟩
      · exact absurd rfl (hseg (by simp))
    · exact ⟨c, _, rfl, h9, fun b => by cases ds <;> rfl⟩
  obtain ⟨cm, CM, h9, h10, h11⟩ := hcross
  obtain ⟨logits, h12, h13⟩ := decoder_3 ex lg hp hb.decInputs h8 (mask := some dm) (M := some DM) (.some h5) (cross := some cm) (C := some CM)
    (.some h10)
  refine ⟨logits, _, ?_, h13, fun b => ?_⟩
  · simp only [apply, encode, hl, if_true, h1, h7, h4, h9, h12, Option.bind_some]
  · simp only [Transformer.apply, Transformer.encode, he2, hd2, h3, h6, h11, Option.map_some, Option.bind_some]

/-- C105: segment ids of the encoder without those of the decoder raise an exception. -/
theorem C105_missing_segments {a : Batch} (h1 : a.encSeg ≠ none) (h2 : a.decSeg = none) : apply ex lg cfg p a = none := by
  obtain ⟨s, hs⟩ := Option.ne_none_iff_exists'.1 h1
  have : crossMask a = none := by
    unfold crossMask
    simp only [hs, h2, Option.bind_none]
    cases makeAttentionMask (mapA (fun t => Masks.ofBool (t > 0)) a.decTargets) (mapA (fun t => Masks.ofBool (t > 0)) a.encTokens) Masks.multiply <;> rfl
  unfold apply
  simp only [this, Option.bind_none]
  cases encode ex lg cfg p a.encTokens a.encSeg <;> [rfl; cases makeDecoderMask a.decTargets a.decSeg <;> rfl]

/-- C105: what the model returns for an example does not depend on the batch the example is in: not on the other examples, nor on their number,
nor on its position. -/
theorem C105_batch (hp : ParamsAre cfg p net) {a : Batch} {a' : Batch} {rows : Fin B → Transformer.Input n m}
    {rows' : Fin B' → Transformer.Input n m} (hb : BatchIs a rows) (hb' : BatchIs a' rows') (hseg : a.encSeg ≠ none → a.decSeg ≠ none)
    (hseg' : a'.encSeg ≠ none → a'.decSeg ≠ none) (b : Fin B) (b' : Fin B') (hrow : rows b = rows' b') :
    ∃ y y', apply ex lg cfg p a = some y ∧ apply ex lg cfg p a' = some y' ∧ y.shape = [B, n, V] ∧ y'.shape = [B', n, V] ∧
      ∀ (i : Fin n) (v : Fin V), y.get [b.val, i.val, v.val] = y'.get [b'.val, i.val, v.val] := by
  obtain ⟨y, Y, h1, h2, h3⟩ := C105_apply (ex := ex) (lg := lg) hp hb hseg
  obtain ⟨y', Y', h1', h2', h3'⟩ := C105_apply (ex := ex) (lg := lg) hp hb' hseg'
  refine ⟨y, y', h1, h1', h2.1, h2'.1, fun i v => ?_⟩
  have := h3 b
  rw [hrow, h3' b'] at this
  rw [h2.2, h2'.2, Option.some.inj this]

/-! ### Decoding -/

theorem initCaches_3 (hh : cfg.numHeads = h) (he : cfg.headDim = e) {L : Nat} {hidden : NDArray ℝ} {x : Fin B → Fin L → Fin d → ℝ}
    (hx : Holds3 hidden x) {as : List DecLayer} {ls : List (Transformer.DecLayer d h e f)} (hd : List.Forall₂ DecIs as ls) :
    ∃ cs, initCaches cfg hidden as = some cs ∧ CachesAre cs fun (_ : Fin B) => ls.map fun l => (l, KVCache.Cache.init h e L) := by
  induction hd with
  | nil => exact ⟨[], rfl, .nil⟩
  | @cons a l as ls ha _ ih =>
    obtain ⟨cs, h1, h2⟩ := ih
    obtain ⟨k, hk, h3⟩ := project_3 hx ha.self.key
    obtain ⟨v, hv, h4⟩ := project_3 hx ha.self.value
    refine ⟨_, by simp only [initCaches, initCache, hh, he, hk, hv, Option.bind_some, Option.map_some, h1]; rfl, .cons ha ?_ h2⟩
    refine ⟨⟨by simp [h3.1, zerosA, swapDims], fun _ _ _ _ => rfl⟩, ⟨by simp [h4.1, zerosA, swapDims], fun _ _ _ _ => rfl⟩, fun _ => rfl⟩

theorem feed_3 (hp : ParamsAre cfg p net) {L : Nat} (hL : 0 < L) {encTokens : NDArray Int} {t : Fin B → Fin m → Int} (ht : Holds2 encTokens t)
    {encoded : NDArray ℝ} {y : Fin B → Fin m → Fin d → ℝ} (he : Holds3 encoded y) {toks : List (NDArray Int)} {us : List (Fin B → Int)}
    (hu : List.Forall₂ (fun (a : NDArray Int) (u : Fin B → Int) => Holds2 a fun b (_ : Fin 1) => u b) toks us) :
    ∀ {as : List (DecLayer × Cache)} {cs : Fin B → List (Transformer.DecLayer d h e f × KVCache.Cache h e L)}, CachesAre as cs →
      ∃ ys, feed ex lg cfg p L encTokens encoded as toks = some ys ∧ ys.length = us.length ∧
        ∀ k (hk : k < ys.length), (ys[k]).shape = [B, 1, V] ∧ ∀ b : Fin B, ∃ out,
          (KVCache.feed (T5Decode.step ex lg net (t b) (y b)) (cs b) (us.map fun u => u b))[k]? = some out ∧
          ∀ v : Fin V, (ys[k]).get [b.val, 0, v.val] = out v := by
  induction hu with
  | nil => intro as cs _; exact ⟨[], rfl, rfl, fun k hk => by simp at hk⟩
  | cons h1 _ ih =>
    intro as cs hc
    obtain ⟨r, as', hr, h2, h3⟩ := step_3 ex lg hp hL ht he hc h1
    obtain ⟨ys, hys, hlen, h4⟩ := ih h3
    refine ⟨r :: ys, by simp only [feed, hr, Option.bind_some, hys, Option.map_some], by simp [hlen], ?_⟩
    intro k hk
    cases k with
    | zero =>
      refine ⟨h2.1, fun b => ⟨_, rfl, fun v => ?_⟩⟩
      simpa using h2.2 b 0 v
    | succ k =>
      obtain ⟨h5, h6⟩ := h4 k (by simpa using hk)
      exact ⟨h5, fun b => by simpa [KVCache.feed] using h6 b⟩

/-- C105: decoding with caches.  The inputs of the whole batch are encoded once, the caches are initialised for `L` positions, and the tokens
`us` are fed, one for every row at a time.  Row `b` of the logits after each token is what the network computes for the inputs and the
tokens of row `b` alone. -/
theorem C105_decode (hp : ParamsAre cfg p net) {L : Nat} (hL : 0 < L) {encTokens : NDArray Int} {t : Fin B → Fin m → Int}
    (ht : Holds2 encTokens t) {hidden : NDArray ℝ} {x : Fin B → Fin L → Fin d → ℝ} (hx : Holds3 hidden x) {toks : List (NDArray Int)}
    {us : List (Fin B → Int)} (hu : List.Forall₂ (fun (a : NDArray Int) (u : Fin B → Int) => Holds2 a fun b (_ : Fin 1) => u b) toks us) :
    ∃ encoded cs ys, encode ex lg cfg p encTokens none = some encoded ∧ initCaches cfg hidden p.dec = some cs ∧
      feed ex lg cfg p L encTokens encoded cs toks = some ys ∧ ys.length = us.length ∧
      ∀ b : Fin B, ∃ outs, T5Decode.predict ex lg net L (t b) (us.map fun u => u b) = some outs ∧
        ∀ k (hk : k < ys.length), (ys[k]).shape = [B, 1, V] ∧
          ∃ out, outs[k]? = some out ∧ ∀ v : Fin V, (ys[k]).get [b.val, 0, v.val] = out v := by
  obtain ⟨em, EM, h1, h2, h3⟩ := encoderMask_4 ht (s := none) (y := none) .none
  obtain ⟨enc, h7, h8⟩ := encoder_3 ex lg hp ht (mask := some em) (M := some EM) (.some h2)
  obtain ⟨cs, h9, h10⟩ := initCaches_3 hp.numHeads hp.headDim hx hp.dec
  obtain ⟨ys, h11, h12, h13⟩ := feed_3 (ex := ex) (lg := lg) hp hL ht h8 hu h10
  have hl : encTokens.shape.length = 2 := by simp [ht.1]
  refine ⟨enc, cs, ys, by simp only [encode, hl, if_true, h1, h7, Option.bind_some], h9, h11, h12, fun b =>
    ⟨KVCache.feed (T5Decode.step ex lg net (t b) (Transformer.encoder ex lg net (t b) (some (EM b)))) (T5Decode.emptyCaches net L)
      (us.map fun u => u b), ?_, fun k hk => ?_⟩⟩
  · have h3b : Masks.makeEncoderMask (t b) none = some (EM b) := h3 b
    simp only [T5Decode.predict, h3b, Option.map_some]
  · obtain ⟨h14, h15⟩ := h13 k hk
    exact ⟨h14, h15 b⟩

/-- C105: on whole batches, feeding the decoder inputs one position at a time gives the logits that the model computes for the batch at once: for
every row, at every position up to its first padding target. -/
theorem C105_cached {θ M : ℝ} (hex : Transformer.Spec.Underflows ex θ) (hθ : 0 < θ) (hm : Transformer.Spec.Tame net θ M)
    (hp : ParamsAre cfg p net) {a : Batch} {rows : Fin B → Transformer.Input n m} (hb : BatchIs a rows) (hs1 : a.encSeg = none)
    (hs2 : a.decSeg = none) {L : Nat} (hL : n ≤ L) (hL' : 0 < L) {hidden : NDArray ℝ} {x : Fin B → Fin L → Fin d → ℝ} (hx : Holds3 hidden x)
    {toks : List (NDArray Int)} (hu : List.Forall₂ (fun (c : NDArray Int) (k : Fin n) => Holds2 c fun b (_ : Fin 1) => (rows b).decInputs k)
      toks (List.finRange n)) :
    ∃ logits encoded cs ys, apply ex lg cfg p a = some logits ∧ encode ex lg cfg p a.encTokens none = some encoded ∧
      initCaches cfg hidden p.dec = some cs ∧ feed ex lg cfg p L a.encTokens encoded cs toks = some ys ∧
      ∀ (b : Fin B) (t : Fin n), (∀ j ≤ t, (rows b).decTargets j > 0) → ∃ y, ys[t.val]? = some y ∧
        ∀ v : Fin V, y.get [b.val, 0, v.val] = logits.get [b.val, t.val, v.val] := by
  have hu' : List.Forall₂ (fun (c : NDArray Int) (u : Fin B → Int) => Holds2 c fun b (_ : Fin 1) => u b) toks
      ((List.finRange n).map fun k b => (rows b).decInputs k) := by rw [List.forall₂_map_right_iff]; exact hu
  obtain ⟨logits, Y, h1, h2, h3⟩ := C105_apply (ex := ex) (lg := lg) hp hb (fun h => absurd hs1 h)
  obtain ⟨encoded, cs, ys, h4, h5, h6, h7, h8⟩ := C105_decode (ex := ex) (lg := lg) hp hL' hb.encTokens hx hu'
  refine ⟨logits, encoded, cs, ys, h1, h4, h5, h6, fun b t htg => ?_⟩
  obtain ⟨es, he1, he2⟩ := hb.encSeg
  obtain ⟨ds, hd1, hd2⟩ := hb.decSeg
  rw [hs1] at he1
  rw [hs2] at hd1
  cases he1
  cases hd1
  obtain ⟨y, outs, h9, h10, h11⟩ := T5Decode.C94_decode (lg := lg) hex hθ hm (rows b) (he2 b) (hd2 b) L hL
  obtain ⟨outs', h12, h13⟩ := h8 b
  have e1 : ((List.finRange n).map fun k b => (rows b).decInputs k).map (fun u => u b) = List.ofFn (rows b).decInputs := by
    rw [List.map_map, List.ofFn_eq_map]; rfl
  rw [e1, h10] at h12
  cases h12
  rw [h3 b] at h9
  cases h9
  have hk : t.val < ys.length := by rw [h7]; simp
  obtain ⟨h14, out, h15, h16⟩ := h13 t.val hk
  rw [h11 t htg] at h15
  cases h15
  exact ⟨ys[t.val], List.getElem?_eq_getElem hk, fun v => by rw [h16, h2.2]⟩

/-! ### The hypotheses can be met -/

/-- An array with one number everywhere. -/
def full (s : List Nat) (c : ℝ) : NDArray ℝ := ⟨s, fun _ => c⟩

/-- The arrays of the parameters of `Transformer.demoNet`. -/
noncomputable def demoParams : Params where
  table := full [2, 1] 1
  encRel := ⟨[1, 32], fun i => if i.getD 1 0 = 0 then 1 else 0⟩
  enc := [⟨full [1] 1, ⟨full [1, 1] 2, full [1, 1] 3, full [1, 1] 1, full [1, 1] 1⟩, full [1] 1,
    ⟨(fun x => max x 0, full [1, 1] 1), [(id, full [1, 1] 1)], full [1, 1] 1⟩⟩]
  encNorm := full [1] 1
  decRel := full [1, 32] 0
  dec := [⟨full [1] 1, ⟨full [1, 1] 2, full [1, 1] 3, full [1, 1] 1, full [1, 1] 1⟩, full [1] 1,
    ⟨full [1, 1] 2, full [1, 1] 3, full [1, 1] 1, full [1, 1] 1⟩, full [1] 1, ⟨(id, full [1, 1] 1), [], full [1, 1] 1⟩⟩]
  decNorm := full [1] 1
  logitsDense := none

theorem demo_params : ParamsAre ⟨1, 1, 1, 2, 1e-6⟩ demoParams Transformer.demoNet := by
  have h1 : ∀ c, Holds1 (full [1] c) fun _ : Fin 1 => c := fun c => ⟨rfl, fun _ => rfl⟩
  have h2 : ∀ m n c, Holds2 (full [m, n] c) fun (_ : Fin m) (_ : Fin n) => c := fun m n c => ⟨rfl, fun _ _ => rfl⟩
  refine ⟨rfl, rfl, rfl, rfl, rfl, h2 2 1 1, ⟨rfl, fun i j => ?_⟩, ?_, h1 1, h2 1 32 0, ?_, h1 1, .viaEmbedding⟩
  · simp [demoParams, Transformer.demoNet]
  · exact .cons ⟨h1 1, ⟨h2 1 1 2, h2 1 1 3, h2 1 1 1, h2 1 1 1⟩, h1 1, ⟨rfl, h2 1 1 1⟩, .cons ⟨rfl, h2 1 1 1⟩ .nil, h2 1 1 1⟩ .nil
  · exact .cons ⟨h1 1, ⟨h2 1 1 2, h2 1 1 3, h2 1 1 1, h2 1 1 1⟩, h1 1, ⟨h2 1 1 2, h2 1 1 3, h2 1 1 1, h2 1 1 1⟩, h1 1,
      ⟨rfl, h2 1 1 1⟩, .nil, h2 1 1 1⟩ .nil

/-- The array of some rows of tokens. -/
def tokenArray {m n : Nat} (x : Fin m → Fin n → Int) : NDArray Int :=
  ⟨[m, n], fun i => if h : i.getD 0 0 < m ∧ i.getD 1 0 < n then x ⟨i.getD 0 0, h.1⟩ ⟨i.getD 1 0, h.2⟩ else 0⟩

theorem tokenArray_holds {m n : Nat} (x : Fin m → Fin n → Int) : Holds2 (tokenArray x) x := ⟨rfl, fun i j => by simp [tokenArray]⟩

/-- Two different examples, of different lengths. -/
def demoRows : Fin 2 → Transformer.Input 2 3 :=
  ![⟨![1, 1, 0], ![0, 1], ![1, 1], none, none⟩, ⟨![1, 0, 1], ![0, 1], ![1, 0], none, none⟩]

def demoBatch : Batch :=
  ⟨tokenArray fun b => (demoRows b).encTokens, tokenArray fun b => (demoRows b).decInputs, tokenArray fun b => (demoRows b).decTargets, none, none⟩

theorem demo_batch : BatchIs demoBatch demoRows :=
  ⟨tokenArray_holds _, tokenArray_holds _, tokenArray_holds _, ⟨none, .none, by decide⟩, ⟨none, .none, by decide⟩⟩

/-- The batch decodes to the logits of training. -/
example : ∃ logits encoded cs ys, apply Transformer.flushed lg ⟨1, 1, 1, 2, 1e-6⟩ demoParams demoBatch = some logits ∧
    encode Transformer.flushed lg ⟨1, 1, 1, 2, 1e-6⟩ demoParams demoBatch.encTokens none = some encoded ∧
    initCaches ⟨1, 1, 1, 2, 1e-6⟩ (full [2, 3, 1] 0) demoParams.dec = some cs ∧
    feed Transformer.flushed lg ⟨1, 1, 1, 2, 1e-6⟩ demoParams 3 demoBatch.encTokens encoded cs
      [tokenArray fun b (_ : Fin 1) => (demoRows b).decInputs 0, tokenArray fun b (_ : Fin 1) => (demoRows b).decInputs 1] = some ys ∧
    ∃ y, ys[1]? = some y ∧ ∀ v : Fin 2, y.get [0, 0, v.val] = logits.get [0, 1, v.val] := by
  obtain ⟨logits, encoded, cs, ys, h1, h2, h3, h4, h5⟩ := C105_cached (ex := Transformer.flushed) (lg := lg) (θ := 104) (M := 7)
    (fun x hx => if_pos hx) (by norm_num) Transformer.demoNet_tame demo_params demo_batch rfl rfl (L := 3) (by norm_num) (by norm_num)
    (hidden := full [2, 3, 1] 0) (x := fun _ _ _ => 0) ⟨rfl, fun _ _ _ => rfl⟩
    (toks := [tokenArray fun b (_ : Fin 1) => (demoRows b).decInputs 0, tokenArray fun b (_ : Fin 1) => (demoRows b).decInputs 1])
    (.cons (tokenArray_holds _) (.cons (tokenArray_holds _) .nil))
  exact ⟨logits, encoded, cs, ys, h1, h2, h3, h4, h5 0 1 (by decide)⟩

/-- Parameters of another size. -/
example : ∃ net : Transformer.Net 4 2 3 5 7, ParamsAre ⟨2, 3, 5, 7, 1e-6⟩ ⟨full [7, 4] 1, full [2, 32] 1,
    [⟨full [4] 1, ⟨full [4, 6] 1, full [4, 6] 2, full [4, 6] 3, full [6, 4] 4⟩, full [4] 1, ⟨(id, full [4, 5] 1), [], full [5, 4] 1⟩⟩],
    full [4] 1, full [2, 32] 1, [], full [4] 1, some (full [4, 7] 1)⟩ net := by
  refine C105_params (cfg := ⟨2, 3, 5, 7, 1e-6⟩) (d := 4) ⟨rfl, rfl, ?_, rfl, rfl, fun l hl => absurd hl List.not_mem_nil, rfl,
    fun k hk => by cases hk; rfl⟩
  intro l hl
  rw [List.mem_singleton] at hl
  subst hl
  exact ⟨rfl, ⟨rfl, rfl, rfl, rfl⟩, rfl, ⟨rfl, by simp, rfl⟩⟩

/-- `DenseGeneral` that splits the heads: features 2 × 3 of inputs with 4 features. -/
example (inputs : NDArray ℝ) (hi : inputs.shape = [8, 5, 4]) :
    ∃ r, denseGeneral [2, 3] [-1] (full [4, 6] 1) inputs = some r ∧ r.shape = [8, 5, 2, 3] := by
  obtain ⟨r, h1, h2, -⟩ := C105_dense [8, 5] [4] [2, 3] (full [4, 6] 1) inputs hi rfl
  exact ⟨r, h1, h2⟩

end Verif.ArrT5
