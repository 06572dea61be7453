import Verif.Lemmas.ArrayLm
import Verif.Props.ArrayT5
import Verif.Props.DecoderOnly
/-
Property C112: the decoder-only network as it is written, on arrays with a batch dimension, computes in every row of the batch exactly the
network of that row: in training, when the caches are filled with prompts of different lengths, and when every row decodes at its own index.
-/
namespace Verif.ArrLm
open Verif.ND Verif.Arr Verif.ArrT5.Spec Verif.ArrLm.Spec

variable {B B' n d h e f V : Nat} {cfg : ArrT5.Config} {p : Params} {net : DecoderOnly.LmNet d h e f V} {ex : ℝ → ℝ} {lg : ℕ → ℝ}

/-- C112: for parameter arrays of the right shapes there is a network whose parameters they hold. -/
theorem C112_params (hs : Shapes cfg d p) :
    ∃ net : DecoderOnly.LmNet d cfg.numHeads cfg.headDim cfg.mlpDim cfg.vocabSize, ParamsAre cfg p net := by
  obtain ⟨t5, ht⟩ := ArrT5.C105_params (cfg := cfg) (d := d) (p := asT5 p) ⟨hs.table, hs.rel, hs.layers, hs.norm, hs.rel,
    fun l hl => absurd hl List.not_mem_nil, hs.norm, hs.head⟩
  exact ⟨⟨t5.eps, t5.table, t5.encRel, t5.enc, t5.encNorm, t5.head⟩, ht.numHeads, ht.headDim, ht.mlpDim, ht.vocabSize, ht.eps, ht.table,
    ht.encRel, ht.enc, ht.encNorm, ht.head⟩

/-! ### Training, evaluation and scoring -/

/-- C112: the model applied to a batch returns an array of shape [batch, length, vocab] whose row `b` is what the network computes for
row `b` of the batch alone, packed or not, with a bidirectional prefix or without. -/
theorem C112_apply (hp : ParamsAre cfg p net) {a : Batch} {rows : Fin B → DecoderOnly.Input n} (hb : BatchIs a rows) :
    ∃ logits Y, apply ex lg cfg p a = some logits ∧ Holds3 logits Y ∧ ∀ b, DecoderOnly.apply ex lg net (rows b) = some (Y b) := by
  obtain ⟨cs, hc1, hc2⟩ := hb.causal
  obtain ⟨ss, hs1, hs2⟩ := hb.seg
  obtain ⟨mk, M, h1, h2, h3⟩ := decoderMask_4 hb.targets hc1 hs1
  obtain ⟨x, hx, h4⟩ := ArrT5.embed_3 hp.table hb.inputs
  obtain ⟨y, hy, h5⟩ := layers_3 ex lg hp (mask := some mk) (M := some M) (.some h2) hp.layers h4
  obtain ⟨r, hr, h6⟩ := toLogits_3 hp h5
  have hl : a.inputs.shape.length = 2 := by simp [hb.inputs.1]
  refine ⟨r, _, by simp only [apply, hl, if_true, h1, hx, hy, hr, Option.bind_some], h6, fun b => ?_⟩
  simp only [DecoderOnly.apply, hc2, hs2, h3, Option.map_some]

/-- C112: what the model returns for an example does not depend on the batch the example is in: not on the other examples, nor on their number,
nor on its position. -/
theorem C112_batch (hp : ParamsAre cfg p net) {a a' : Batch} {rows : Fin B → DecoderOnly.Input n} {rows' : Fin B' → DecoderOnly.Input n}
    (hb : BatchIs a rows) (hb' : BatchIs a' rows') (b : Fin B) (b' : Fin B') (hrow : rows b = rows' b') :
    ∃ y y', apply ex lg cfg p a = some y ∧ apply ex lg cfg p a' = some y' ∧ y.shape = [B, n, V] ∧ y'.shape = [B', n, V] ∧
      ∀ (i : Fin n) (v : Fin V), y.get [b.val, i.val, v.val] = y'.get [b'.val, i.val, v.val] := by
  obtain ⟨y, Y, h1, h2, h3⟩ := C112_apply (ex := ex) (lg := lg) hp hb
  obtain ⟨y', Y', h1', h2', h3'⟩ := C112_apply (ex := ex) (lg := lg) hp hb'
  refine ⟨y, y', h1, h1', h2.1, h2'.1, fun i v => ?_⟩
  have := h3 b
  rw [hrow, h3' b'] at this
  rw [h2.2, h2'.2, Option.some.inj this]

/-! ### Decoding -/

theorem feed_3 (hp : ParamsAre cfg p net) {L : Nat} {toks : List (NDArray Int)} {us : List (Fin B → Int)}
    (hu : List.Forall₂ (fun (a : NDArray Int) (u : Fin B → Int) => Holds2 a fun b (_ : Fin 1) => u b) toks us) :
    ∀ {vars : Vars} {cs : Fin B → List (Transformer.EncLayer d h e f × KVCache.Cache h e L)}, CachesAre vars.layers cs →
      BiasIs lg net.rel L vars.bias → ∃ ys, feed ex lg cfg p L vars toks = some ys ∧ ys.length = us.length ∧
        ∀ k (hk : k < ys.length), (ys[k]).shape = [B, 1, V] ∧ ∀ b : Fin B, ∃ out,
          (KVCache.feed (DecoderOnly.step ex lg net) (cs b) (us.map fun u => u b))[k]? = some out ∧
          ∀ v : Fin V, (ys[k]).get [b.val, 0, v.val] = out v := by
  induction hu with
  | nil => intro vars cs _ _; exact ⟨[], rfl, rfl, fun k hk => by simp at hk⟩
  | cons h1 _ ih =>
    intro vars cs hc hb
    obtain ⟨r, vars', hr, h2, h3, h3'⟩ := step_3 ex lg hp hc hb h1
    obtain ⟨ys, hys, hlen, h4⟩ := ih h3 h3'
    refine ⟨r :: ys, by simp only [feed, hr, Option.bind_some, hys, Option.map_some], by simp [hlen], ?_⟩
    intro k hk
    cases k with
    | zero =>
      refine ⟨h2.1, fun b => ⟨_, rfl, fun v => ?_⟩⟩
      simpa using h2.2 b 0 v
    | succ k =>
      obtain ⟨h5, h6⟩ := h4 k (by simpa using hk)
      exact ⟨h5, fun b => by simpa [KVCache.feed] using h6 b⟩

/-- C112: prediction for a batch of prompts, of any lengths.  The prompts are the part of the inputs that `causal` marks, the caches of the whole
batch are filled at once, and the tokens `us` are fed, one for every row at a time.  In row `b` the tokens, the initial index and the logits after
each token are those that the network computes for row `b` alone. -/
theorem C112_predict (hp : ParamsAre cfg p net) (bidirectional : Bool) {inputs causal : NDArray Int} {x c : Fin B → Fin n → Int}
    (hx : Holds2 inputs x) (hc : Holds2 causal c) {toks : List (NDArray Int)} {us : List (Fin B → Int)}
    (hu : List.Forall₂ (fun (a : NDArray Int) (u : Fin B → Int) => Holds2 a fun b (_ : Fin 1) => u b) toks us) :
    ∃ prompt vars index ys, predict ex lg cfg p bidirectional inputs causal = some (prompt, vars, index) ∧
      feed ex lg cfg p n vars toks = some ys ∧ ys.length = us.length ∧
      (Holds2 prompt fun b => (DecoderOnly.predict ex lg net bidirectional (x b) (c b)).1) ∧
      (Holds1 index fun b => (DecoderOnly.predict ex lg net bidirectional (x b) (c b)).2.1) ∧
      ∀ k (hk : k < ys.length), (ys[k]).shape = [B, 1, V] ∧ ∀ b : Fin B, ∃ out,
        ((DecoderOnly.predict ex lg net bidirectional (x b) (c b)).2.2 (us.map fun u => u b))[k]? = some out ∧
        ∀ v : Fin V, (ys[k]).get [b.val, 0, v.val] = out v := by
  obtain ⟨pr, hpr, h1⟩ := zip_2_2 (fun u v : Int => u * v) hx hc
  obtain ⟨rest, hrest, h2⟩ := lengths_1 h1
  have hones := map_2 (fun _ : Int => (1 : Int)) h1
  obtain ⟨y0, hy0, h3⟩ := ArrT5.embed_3 hp.table hones
  obtain ⟨z0, vars0, Z0, hz0, h4, h5, h6⟩ := layersInit_3 ex lg hp hp.layers (cached := none) (by intro b hb; cases hb) h3
  obtain ⟨l0, hl0, -⟩ := toLogits_3 hp h4
  have hinit : init ex lg cfg p (mapA (fun _ => 1) pr) = some vars0 := by
    have hl : (mapA (fun _ : Int => (1 : Int)) pr).shape.length = 2 := by simp [hones.1]
    simp only [init, hl, if_true, hy0, Option.bind_some, hz0, hl0, Option.map_some]
  have hcz : SegsAre (if bidirectional then some causal else none) (if bidirectional then some c else none) := by
    cases bidirectional
    · exact .none
    · exact .some hc
  obtain ⟨mk, M, hmk, h7, h8⟩ := decoderMask_4 hc hcz (s := none) (y := none) .none
  obtain ⟨y1, hy1, h9⟩ := ArrT5.embed_3 hp.table h1
  obtain ⟨z1, as1, Z1, hz1, h10, h11⟩ := layersPrefill_3 ex lg hp h2 (mask := some mk) (M := some M) (.some h7) h5 h9
  obtain ⟨l1, hl1, -⟩ := toLogits_3 hp h10
  have hpre : prefill ex lg cfg p vars0 ⟨pr, causal, if bidirectional then some causal else none, none⟩
      (sumLast (mapA (fun t : Int => if t ≠ 0 then 1 else 0) rest)) = some ⟨as1, vars0.bias⟩ := by
    have hl : pr.shape.length = 2 := by simp [h1.1]
    simp only [prefill, hl, if_true, hmk, hy1, Option.bind_some, hz1, hl1, Option.map_some]
  have hkv : ∀ b, DecoderOnly.computeKvCache ex lg net bidirectional (fun j => x b j * c b j) (c b) =
      (DecoderOnly.prefill ex lg net (some (M b)) (KVCache.inputsLength fun j => x b j * c b j) net.layers
        (fun j => Transformer.embed net.table (x b j * c b j)), KVCache.inputsLength fun j => x b j * c b j) := by
    intro b
    have hb := h8 b
    have e1 : ((if bidirectional then some c else none).map fun z => z b) = KVCache.maybeCausal bidirectional (c b) := by
      cases bidirectional <;> rfl
    rw [e1] at hb
    simp only [Option.map_none] at hb
    simp only [DecoderOnly.computeKvCache, hb]
  obtain ⟨ys, hys, hlen, h12⟩ := feed_3 (ex := ex) (lg := lg) hp hu (vars := ⟨as1, vars0.bias⟩) h11 h6
  refine ⟨pr, ⟨as1, vars0.bias⟩, sumLast (mapA (fun t : Int => if t ≠ 0 then 1 else 0) rest), ys, ?_, hys, hlen, h1, h2, ?_⟩
  · simp only [predict, hpr, computeKvCache, hrest, hinit, hpre, Option.bind_some, Option.map_some]
  · intro k hk
    obtain ⟨h13, h14⟩ := h12 k hk
    refine ⟨h13, fun b => ?_⟩
    obtain ⟨out, h15, h16⟩ := h14 b
    refine ⟨out, ?_, h16⟩
    simp only [DecoderOnly.predict, hkv]
    exact h15

/-- C112: on whole batches, decoding after the prompts gives the logits of training.  Row `b` has a prompt of `len b` tokens, the initial index
holds these lengths, and row `b` is fed from its own length on; the logits after token `k` are those that the model computes for the whole batch
at once, in row `b` at position `len b + k`, up to the first padding target. -/
theorem C112_cached {θ M : ℝ} (hex : Transformer.Spec.Underflows ex θ) (hθ : 0 < θ) (hm : DecoderOnly.Spec.TameLm net θ M)
    (hp : ParamsAre cfg p net) (bidirectional : Bool) {inputs targets causal : NDArray Int} {x t c : Fin B → Fin n → Int} (hx : Holds2 inputs x)
    (ht : Holds2 targets t) (hc : Holds2 causal c) {len : Fin B → Fin n} (hlen : ∀ b, KVCache.Prompt (x b) (c b) (len b))
    {toks : List (NDArray Int)} {us : List (Fin B → Int)}
    (hu : List.Forall₂ (fun (a : NDArray Int) (u : Fin B → Int) => Holds2 a fun b (_ : Fin 1) => u b) toks us)
    (hus : ∀ (k : Nat) u, us[k]? = some u → ∀ (b : Fin B) (hk : (len b).val + k < n), u b = x b ⟨(len b).val + k, hk⟩) :
    ∃ logits prompt vars index ys,
      apply ex lg cfg p ⟨inputs, targets, if bidirectional then some causal else none, none⟩ = some logits ∧
      predict ex lg cfg p bidirectional inputs causal = some (prompt, vars, index) ∧ feed ex lg cfg p n vars toks = some ys ∧
      (Holds2 prompt fun b j => if j ≤ len b then x b j else 0) ∧ (Holds1 index fun b => (len b).val) ∧
      ∀ (b : Fin B) (k : Nat) (hk : (len b).val + k < n), k < toks.length → (∀ j : Fin n, j.val ≤ (len b).val + k → t b j > 0) →
        ∃ y, ys[k]? = some y ∧ ∀ v : Fin V, y.get [b.val, 0, v.val] = logits.get [b.val, (len b).val + k, v.val] := by
  have hcz : SegsAre (if bidirectional then some causal else none) (if bidirectional then some c else none) := by
    cases bidirectional
    · exact .none
    · exact .some hc
  have hbatch : BatchIs ⟨inputs, targets, if bidirectional then some causal else none, none⟩
      fun b => (⟨x b, t b, KVCache.maybeCausal bidirectional (c b), none⟩ : DecoderOnly.Input n) :=
    ⟨hx, ht, ⟨_, hcz, fun b => by cases bidirectional <;> rfl⟩, none, .none, fun _ => rfl⟩
  obtain ⟨logits, Y, h1, h2, h3⟩ := C112_apply (ex := ex) (lg := lg) hp hbatch
  obtain ⟨prompt, vars, index, ys, h4, h5, h6, h7, h8, h9⟩ := C112_predict (ex := ex) (lg := lg) hp bidirectional hx hc hu
  have key := fun b => DecoderOnly.C95_prefill (lg := lg) hex hθ hm bidirectional (x b) (t b) (c b) (len b) (hlen b)
  refine ⟨logits, prompt, vars, index, ys, h1, h4, h5, ⟨h7.1, fun b j => ?_⟩, ⟨h8.1, fun b => ?_⟩, fun b k hk hkt hpos => ?_⟩
  · obtain ⟨toks', lgs, out, e1, e2, -, -⟩ := key b
    refine (h7.2 b j).trans ?_
    simp only [e1, e2]
  · obtain ⟨toks', lgs, out, e1, -, -, -⟩ := key b
    refine (h8.2 b).trans ?_
    simp only [e1]
  · obtain ⟨toks', lgs, out, e1, -, e3, e4⟩ := key b
    rw [h3 b] at e3
    cases e3
    have hku : k < us.length := by rw [← hu.length_eq]; exact hkt
    have hky : k < ys.length := by rw [h6]; exact hku
    obtain ⟨-, h10⟩ := h9 k hky
    obtain ⟨o, h11, h12⟩ := h10 b
    have e5 := e4 ⟨(len b).val + k, hk⟩ (show (len b).val ≤ (len b).val + k by omega) (fun j hj => hpos j hj)
    have e6 : lgs = KVCache.feed (DecoderOnly.step ex lg net)
        (DecoderOnly.computeKvCache ex lg net bidirectional (fun j => x b j * c b j) (c b)).1 := by
      have := congrArg (fun r => r.2.2) e1
      exact this.symm
    have e7 : (us.map fun u => u b).take (k + 1) = ((List.ofFn (x b)).drop (len b).val).take (k + 1) := by
      apply List.ext_getElem?
      intro j
      by_cases hj : j < k + 1
      · have hju : j < us.length := by omega
        rw [List.getElem?_take_of_lt hj, List.getElem?_take_of_lt hj, List.getElem?_map, List.getElem?_eq_getElem hju, List.getElem?_drop,
          List.getElem?_ofFn, dif_pos (by omega), Option.map_some, hus j _ (List.getElem?_eq_getElem hju) b (by omega)]
      · rw [List.getElem?_eq_none (by rw [List.length_take]; omega), List.getElem?_eq_none (by rw [List.length_take]; omega)]
    have e8 : (⟨(len b).val + k, hk⟩ : Fin n).val - (len b).val = k := by simp
    rw [e1] at h11
    simp only [e6] at h11 e5
    rw [Score.feed_take, e7, ← Score.feed_take] at h11
    rw [e8, h11] at e5
    refine ⟨ys[k], List.getElem?_eq_getElem hky, fun v => ?_⟩
    rw [h12, Option.some.inj e5]
    exact (h2.2 b ⟨(len b).val + k, hk⟩ v).symm

/-! ### The hypotheses can be met -/

/-- The arrays of the parameters of `DecoderOnly.demoLm`. -/
noncomputable def demoParams : Params where
  table := ArrT5.full [2, 1] 1
  rel := ⟨[1, 32], fun i => if i.getD 1 0 = 0 then 1 else 0⟩
  layers := [⟨ArrT5.full [1] 1, ⟨ArrT5.full [1, 1] 2, ArrT5.full [1, 1] 3, ArrT5.full [1, 1] 1, ArrT5.full [1, 1] 1⟩, ArrT5.full [1] 1,
    ⟨(fun x => max x 0, ArrT5.full [1, 1] 1), [(id, ArrT5.full [1, 1] 1)], ArrT5.full [1, 1] 1⟩⟩]
  norm := ArrT5.full [1] 1
  logitsDense := none

theorem demo_params : ParamsAre ⟨1, 1, 1, 2, 1e-6⟩ demoParams DecoderOnly.demoLm := by
  have h1 : ∀ c, Holds1 (ArrT5.full [1] c) fun _ : Fin 1 => c := fun c => ⟨rfl, fun _ => rfl⟩
  have h2 : ∀ m n c, Holds2 (ArrT5.full [m, n] c) fun (_ : Fin m) (_ : Fin n) => c := fun m n c => ⟨rfl, fun _ _ => rfl⟩
  refine ⟨rfl, rfl, rfl, rfl, rfl, h2 2 1 1, ⟨rfl, fun i j => ?_⟩, ?_, h1 1, .viaEmbedding⟩
  · simp [demoParams, DecoderOnly.demoLm]
  · exact .cons ⟨h1 1, ⟨h2 1 1 2, h2 1 1 3, h2 1 1 1, h2 1 1 1⟩, h1 1, ⟨rfl, h2 1 1 1⟩, .cons ⟨rfl, h2 1 1 1⟩ .nil, h2 1 1 1⟩ .nil

/-- Two rows with prompts of two tokens and of one. -/
def demoInputs : Fin 2 → Fin 4 → Int := ![![0, 1, 1, 1], ![0, 1, 1, 1]]
def demoCausal : Fin 2 → Fin 4 → Int := ![![1, 1, 1, 0], ![1, 1, 0, 0]]

/-- The tokens fed after the prompts: from position 2 in the first row and from position 1 in the second. -/
def demoTokens : List (Fin 2 → Int) := [![1, 1], ![1, 1]]

example : ∃ logits prompt vars index ys,
    apply Transformer.flushed lg ⟨1, 1, 1, 2, 1e-6⟩ demoParams ⟨ArrT5.tokenArray demoInputs, ArrT5.full [2, 4] 1 |> mapA (fun _ => 1),
      some (ArrT5.tokenArray demoCausal), none⟩ = some logits ∧
    predict Transformer.flushed lg ⟨1, 1, 1, 2, 1e-6⟩ demoParams true (ArrT5.tokenArray demoInputs) (ArrT5.tokenArray demoCausal) =
      some (prompt, vars, index) ∧
    feed Transformer.flushed lg ⟨1, 1, 1, 2, 1e-6⟩ demoParams 4 vars
      (demoTokens.map fun u => ArrT5.tokenArray fun b (_ : Fin 1) => u b) = some ys ∧
    index.get [0] = 2 ∧ index.get [1] = 1 ∧
    (∃ y, ys[1]? = some y ∧ ∀ v : Fin 2, y.get [0, 0, v.val] = logits.get [0, 3, v.val]) ∧
    ∃ y, ys[1]? = some y ∧ ∀ v : Fin 2, y.get [1, 0, v.val] = logits.get [1, 2, v.val] := by
  obtain ⟨logits, prompt, vars, index, ys, h1, h2, h3, -, h4, h5⟩ := C112_cached (ex := Transformer.flushed) (lg := lg) (θ := 104) (M := 7)
    DecoderOnly.flushed_underflows (by norm_num) DecoderOnly.demoLm_tame demo_params true (ArrT5.tokenArray_holds demoInputs)
    (targets := ArrT5.full [2, 4] 1 |> mapA (fun _ => 1)) (t := fun _ _ => 1) ⟨rfl, fun _ _ => rfl⟩ (ArrT5.tokenArray_holds demoCausal)
    (len := ![2, 1]) (by
      intro b
      fin_cases b
      · exact ⟨by decide, by decide⟩
      · exact ⟨by decide, by decide⟩)
    (toks := demoTokens.map fun u => ArrT5.tokenArray fun b (_ : Fin 1) => u b) (us := demoTokens)
    (.cons (ArrT5.tokenArray_holds _) (.cons (ArrT5.tokenArray_holds _) .nil))
    (by
      intro k u hu b hk
      match k, hu with
      | 0, hu => cases hu; fin_cases b <;> rfl
      | 1, hu => cases hu; fin_cases b <;> rfl)
  exact ⟨logits, prompt, vars, index, ys, h1, h2, h3, h4.2 0, h4.2 1, h5 0 1 (by decide) (by decide) (by intros; decide),
    h5 1 1 (by decide) (by decide) (by intros; decide)⟩

/-- Parameters of another size. -/
example : ∃ net : DecoderOnly.LmNet 4 2 3 5 7, ParamsAre ⟨2, 3, 5, 7, 1e-6⟩ ⟨ArrT5.full [7, 4] 1, ArrT5.full [2, 32] 1,
    [⟨ArrT5.full [4] 1, ⟨ArrT5.full [4, 6] 1, ArrT5.full [4, 6] 2, ArrT5.full [4, 6] 3, ArrT5.full [6, 4] 4⟩, ArrT5.full [4] 1,
      ⟨(id, ArrT5.full [4, 5] 1), [], ArrT5.full [5, 4] 1⟩⟩], ArrT5.full [4] 1, some (ArrT5.full [4, 7] 1)⟩ net := by
  refine C112_params (cfg := ⟨2, 3, 5, 7, 1e-6⟩) (d := 4) ⟨rfl, rfl, ?_, rfl, fun k hk => by cases hk; rfl⟩
  intro l hl
  rw [List.mem_singleton] at hl
  subst hl
  exact ⟨rfl, ⟨rfl, rfl, rfl, rfl⟩, rfl, ⟨rfl, by simp, rfl⟩⟩

/-- A packed row with a bidirectional prefix, in batches of two rows and of one. -/
example (row other : DecoderOnly.Input 4) (hr : row.causal = some ![1, 1, 0, 0] ∧ row.seg = some ![1, 1, 2, 2])
    (ho : other.causal = some ![1, 0, 1, 0] ∧ other.seg = some ![1, 1, 2, 2]) {a a' : Batch}
    (ha : a = ⟨ArrT5.tokenArray ![other.inputs, row.inputs], ArrT5.tokenArray ![other.targets, row.targets],
      some (ArrT5.tokenArray ![![1, 0, 1, 0], ![1, 1, 0, 0]]), some (ArrT5.tokenArray ![![1, 1, 2, 2], ![1, 1, 2, 2]])⟩)
    (ha' : a' = ⟨ArrT5.tokenArray ![row.inputs], ArrT5.tokenArray ![row.targets], some (ArrT5.tokenArray ![![1, 1, 0, 0]]),
      some (ArrT5.tokenArray ![![1, 1, 2, 2]])⟩) :
    ∃ y y', apply ex lg ⟨1, 1, 1, 2, 1e-6⟩ demoParams a = some y ∧ apply ex lg ⟨1, 1, 1, 2, 1e-6⟩ demoParams a' = some y' ∧
      ∀ (i : Fin 4) (v : Fin 2), y.get [1, i.val, v.val] = y'.get [0, i.val, v.val] := by
  have hb : BatchIs a ![other, row] := by
    subst ha
    refine ⟨⟨rfl, fun i j => ?_⟩, ⟨rfl, fun i j => ?_⟩, ⟨_, .some (ArrT5.tokenArray_holds _), fun b => ?_⟩, _, .some (ArrT5.tokenArray_holds _), fun b => ?_⟩
    · rw [(ArrT5.tokenArray_holds _).2]; fin_cases i <;> rfl
    · rw [(ArrT5.tokenArray_holds _).2]; fin_cases i <;> rfl
    · fin_cases b
      · exact ho.1
      · exact hr.1
    · fin_cases b
      · exact ho.2
      · exact hr.2
  have hb' : BatchIs a' ![row] := by
    subst ha'
    refine ⟨⟨rfl, fun i j => ?_⟩, ⟨rfl, fun i j => ?_⟩, ⟨_, .some (ArrT5.tokenArray_holds _), fun b => ?_⟩, _, .some (ArrT5.tokenArray_holds _), fun b => ?_⟩
    · rw [(ArrT5.tokenArray_holds _).2]; fin_cases i; rfl
    · rw [(ArrT5.tokenArray_holds _).2]; fin_cases i; rfl
    · fin_cases b; exact hr.1
    · fin_cases b; exact hr.2
  obtain ⟨y, y', h1, h2, -, -, h3⟩ := C112_batch (ex := ex) (lg := lg) demo_params hb hb' 1 0 rfl
  exact ⟨y, y', h1, h2, h3⟩

end Verif.ArrLm
