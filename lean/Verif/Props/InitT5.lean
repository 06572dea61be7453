import Verif.Lemmas.InitT5
import Verif.Props.ArrayT5
import Verif.Props.AxisRules
namespace Verif.InitT5
open Verif.InitT5.Spec Verif.Importer.Spec

variable {cfg : Config}

/-! ### Which parameters there are -/

theorem mem_wis (e : Bool) (l : Nat) (p : Param) :
    p ∈ (List.range cfg.numActs).map (wiParam cfg e l) ↔ ∃ i, HasWi cfg i ∧ p = .mlp e l false i := by
  simp only [List.mem_map, List.mem_range, wiParam]
  constructor
  · rintro ⟨i, hi, rfl⟩
    by_cases h : cfg.numActs = 1
    · exact ⟨none, .one h, by simp [h]⟩
    · exact ⟨some i, .many h hi, by simp [h]⟩
  · rintro ⟨i, hi, rfl⟩
    cases hi with
    | one h => exact ⟨0, by omega, by simp [h]⟩
    | many h hi => exact ⟨_, hi, by simp [h]⟩

theorem mem_attn (e : Bool) (l : Nat) (k : Attn) (p : Param) : p ∈ attnParams e l k ↔ ∃ m, p = .attn e l k m := by
  simp only [attnParams, List.mem_cons, List.not_mem_nil, or_false]
  constructor
  · rintro (rfl | rfl | rfl | rfl) <;> exact ⟨_, rfl⟩
  · rintro ⟨m, rfl⟩
    cases m <;> simp

theorem mem_t5 (p : Param) : p ∈ adds [] (encCalls cfg ++ decCalls cfg) ↔ HasT5 cfg p := by
  simp only [mem_adds, List.not_mem_nil, false_or, encCalls, decCalls, encParams, decParams, mlpParams, logitParams, List.mem_append, List.mem_flatMap,
    List.mem_range, mem_wis, mem_attn, List.mem_singleton]
  constructor
  · rintro ((rfl | ⟨l, hl, h⟩ | rfl) | rfl | ⟨l, hl, h⟩ | rfl | h)
    · exact .shared
    · rcases h with rfl | rfl | ⟨m, rfl⟩ | rfl | ⟨i, hi, rfl⟩ | rfl
      · exact .rel (e := true) (by simp only [layersOf, if_true]; omega)
      · exact .preAttention hl
      · exact .encAttn m hl
      · exact .preMlp (e := true) hl
      · exact .wi (e := true) hl hi
      · exact .wo (e := true) hl
    · exact .finalLn _
    · exact .shared
    · rcases h with rfl | rfl | ⟨m, rfl⟩ | rfl | ⟨m, rfl⟩ | rfl | ⟨i, hi, rfl⟩ | rfl
      · exact .rel (e := false) (by simp only [layersOf, Bool.false_eq_true, if_false]; omega)
      · exact .preSelf hl
      · exact .decAttn m hl
      · exact .preCross hl
      · exact .cross m hl
      · exact .preMlp (e := false) hl
      · exact .wi (e := false) hl hi
      · exact .wo (e := false) hl
    · exact .finalLn _
    · cases hv : cfg.viaEmbedding with
      | true => simp [hv] at h
      | false =>
        simp only [hv, Bool.false_eq_true, if_false, List.mem_singleton] at h
        subst h
        exact .logits hv
  · intro h
    cases h with
    | shared => exact .inl (.inl rfl)
    | @rel e h =>
      cases e with
      | true => exact .inl (.inr (.inl ⟨0, h, .inl rfl⟩))
      | false => exact .inr (.inr (.inl ⟨0, h, .inl rfl⟩))
    | @encAttn n m h => exact .inl (.inr (.inl ⟨n, h, .inr (.inr (.inl ⟨m, rfl⟩))⟩))
    | @decAttn n m h => exact .inr (.inr (.inl ⟨n, h, .inr (.inr (.inl ⟨m, rfl⟩))⟩))
    | @cross n m h => exact .inr (.inr (.inl ⟨n, h, .inr (.inr (.inr (.inr (.inl ⟨m, rfl⟩))))⟩))
    | @wi e n i h hi =>
      cases e with
      | true => exact .inl (.inr (.inl ⟨n, h, .inr (.inr (.inr (.inr (.inl ⟨i, hi, rfl⟩))))⟩))
      | false => exact .inr (.inr (.inl ⟨n, h, .inr (.inr (.inr (.inr (.inr (.inr (.inl ⟨i, hi, rfl⟩))))))⟩))
    | @wo e n h =>
      cases e with
      | true => exact .inl (.inr (.inl ⟨n, h, .inr (.inr (.inr (.inr (.inr rfl))))⟩))
      | false => exact .inr (.inr (.inl ⟨n, h, .inr (.inr (.inr (.inr (.inr (.inr (.inr rfl))))))⟩))
    | @preAttention n h => exact .inl (.inr (.inl ⟨n, h, .inr (.inl rfl)⟩))
    | @preSelf n h => exact .inr (.inr (.inl ⟨n, h, .inr (.inl rfl)⟩))
    | @preCross n h => exact .inr (.inr (.inl ⟨n, h, .inr (.inr (.inr (.inl rfl)))⟩))
    | @preMlp e n h =>
      cases e with
      | true => exact .inl (.inr (.inl ⟨n, h, .inr (.inr (.inr (.inl rfl)))⟩))
      | false => exact .inr (.inr (.inl ⟨n, h, .inr (.inr (.inr (.inr (.inr (.inl rfl)))))⟩))
    | finalLn e =>
      cases e with
      | true => exact .inl (.inr (.inr rfl))
      | false => exact .inr (.inr (.inr (.inl rfl)))
    | logits h => exact .inr (.inr (.inr (.inr (by simp [h]))))

theorem mem_lm (p : Param) : p ∈ adds [] (lmCalls cfg) ↔ HasLm cfg p := by
  simp only [mem_adds, List.not_mem_nil, false_or, lmCalls, lmParams, mlpParams, logitParams, List.mem_append, List.mem_flatMap,
    List.mem_range, mem_wis, mem_attn, List.mem_singleton]
  constructor
  · rintro (rfl | ⟨l, hl, h⟩ | rfl | h)
    · exact .emb
    · rcases h with rfl | rfl | ⟨m, rfl⟩ | rfl | ⟨i, hi, rfl⟩ | rfl
      · exact .rel (by omega)
      · exact .preSelf hl
      · exact .attn m hl
      · exact .preMlp hl
      · exact .wi hl hi
      · exact .wo hl
    · exact .finalLn
    · cases hv : cfg.viaEmbedding with
      | true => simp [hv] at h
      | false =>
        simp only [hv, Bool.false_eq_true, if_false, List.mem_singleton] at h
        subst h
        exact .logits hv
  · intro h
    cases h with
    | emb => exact .inl rfl
    | rel h => exact .inr (.inl ⟨0, h, .inl rfl⟩)
    | @attn n m h => exact .inr (.inl ⟨n, h, .inr (.inr (.inl ⟨m, rfl⟩))⟩)
    | @wi n i h hi => exact .inr (.inl ⟨n, h, .inr (.inr (.inr (.inr (.inl ⟨i, hi, rfl⟩))))⟩)
    | @wo n h => exact .inr (.inl ⟨n, h, .inr (.inr (.inr (.inr (.inr rfl))))⟩)
    | @preSelf n h => exact .inr (.inl ⟨n, h, .inr (.inl rfl)⟩)
    | @preMlp n h => exact .inr (.inl ⟨n, h, .inr (.inr (.inr (.inl rfl)))⟩)
    | finalLn => exact .inr (.inr (.inl rfl))
    | logits h => exact .inr (.inr (.inr (by simp [h])))

theorem good_t5 {p : Param} (h : HasT5 cfg p) : Good p := by cases h <;> trivial

theorem good_of_lm {p : Param} (h : HasLm cfg p) : Good p := by cases h <;> trivial

theorem are_of {Has : Param → Prop} {ps : List Param} (hn : ps.Nodup) (hm : ∀ p, p ∈ ps ↔ Has p) (hg : ∀ p, Has p → Good p) :
    Are cfg Has (ps.map (varOf cfg)) := by
  constructor
  · rw [List.map_map]
    refine List.Nodup.map_on ?_ hn
    intro p hp q hq he
    exact pathOf_inj (hg p ((hm p).1 hp)) (hg q ((hm q).1 hq)) he
  · intro v
    rw [List.mem_map]
    constructor
    · rintro ⟨p, hp, rfl⟩; exact ⟨p, (hm p).1 hp, rfl⟩
    · rintro ⟨p, hp, rfl⟩; exact ⟨p, (hm p).2 hp, rfl⟩

/-- **C114.** The variables of the encoder-decoder model are the parameters of the architecture, each once, with these paths, shapes and logical
axes; they are the same whatever the batch size and the lengths of the inputs are, and with or without segment ids. -/
theorem C114_t5 (cfg : Config) (ha : 0 < cfg.numActs) :
    ∃ vars, Are cfg (HasT5 cfg) vars ∧ ∀ (B n m : Nat) (es ds : Bool), (es = true → ds = true) → initT5 cfg [B, m] [B, n] es ds = some vars :=
  ⟨_, are_of (nodup_adds _ _ List.nodup_nil) mem_t5 (fun _ => good_t5), fun _ _ _ _ _ hs => initT5_eq (.inl ha) hs⟩

/-- **C114.** The same for the decoder-only model. -/
theorem C114_lm (cfg : Config) (ha : 0 < cfg.numActs) :
    ∃ vars, Are cfg (HasLm cfg) vars ∧ ∀ B n : Nat, initLm cfg [B, n] = some vars :=
  ⟨_, are_of (nodup_adds _ _ List.nodup_nil) mem_lm (fun _ => good_of_lm), fun _ _ => initLm_eq (.inl ha)⟩

/-! ### What raises -/

theorem attention_batch {B B' n m : Nat} {e : Bool} {l : Nat} {k : Attn} {ps : List Param} (hps : ∀ q ∈ ps, Good q) (hB : B ≠ B') :
    attention cfg [side e, layerName l, k.name] [B, n, cfg.embDim] [B', m, cfg.embDim] (ps.map (varOf cfg)) = none := by
  have g : ∀ {qs l : List Param}, (∀ q ∈ qs, Good q) → (∀ q ∈ l, Good q) → ∀ q ∈ adds qs l, Good q := fun h1 h2 => good_adds h1 h2
  have one : ∀ (a : Mat), ∀ q ∈ [Param.attn e l k a], Good q := fun a => good_one trivial
  have e1 := dense_last (cfg := cfg) (f := [cfg.numHeads, cfg.headDim]) (axes := ["embed".toList, "joined_kv".toList]) (B := B) (n := n)
    (d := cfg.embDim) (p := .attn e l k .q) (scope := [side e, layerName l, k.name, "query".toList]) hps trivial rfl (by simp [shapeOf]) rfl
  have e2 := dense_last (cfg := cfg) (f := [cfg.numHeads, cfg.headDim]) (axes := ["embed".toList, "joined_kv".toList]) (B := B') (n := m)
    (d := cfg.embDim) (p := .attn e l k .k) (scope := [side e, layerName l, k.name, "key".toList]) (g hps (one .q)) trivial rfl (by simp [shapeOf]) rfl
  have e3 := dense_last (cfg := cfg) (f := [cfg.numHeads, cfg.headDim]) (axes := ["embed".toList, "joined_kv".toList]) (B := B') (n := m)
    (d := cfg.embDim) (p := .attn e l k .v) (scope := [side e, layerName l, k.name, "value".toList]) (g (g hps (one .q)) (one .k)) trivial rfl
    (by simp [shapeOf]) rfl
  simp only [attention, e1, Option.bind_some, e2, e3, List.cons_append, List.nil_append, attend, hB, false_and, if_false, Option.bind_none]

/-- **C114.** `init` raises if a shape does not have two dimensions, if the batch sizes of encoder and decoder differ, if there are segment ids for the
encoder only, or if there are layers but no activations. -/
theorem C114_raises (cfg : Config) :
    (∀ es ds a b, (a.length ≠ 2 ∨ b.length ≠ 2) → initT5 cfg a b es ds = none) ∧
    (∀ a b, initT5 cfg a b true false = none) ∧
    (∀ es ds B B' n m, 0 < cfg.numActs → 0 < cfg.numDec → B ≠ B' → initT5 cfg [B', m] [B, n] es ds = none) ∧
    (∀ es ds a b, cfg.numActs = 0 → (0 < cfg.numEnc ∨ 0 < cfg.numDec) → initT5 cfg a b es ds = none) ∧
    (∀ a, a.length ≠ 2 → initLm cfg a = none) ∧
    (∀ a, cfg.numActs = 0 → 0 < cfg.numDec → initLm cfg a = none) := by
  have hdec : ∀ (enc b : List Nat) (vars : List Var), b.length ≠ 2 → decoder cfg enc b vars = none := by
    intro enc b vars hb
    simp only [decoder, ne_eq, hb, not_false_eq_true, if_true]
  have hloop : ∀ (layer : List Name → List Nat → List Var → Option (List Nat × List Var)) (scope : List Name) (N : Nat) (x : List Nat)
      (vars : List Var), (∀ l y vs, layer (scope ++ [layerName l]) y vs = none) → 0 < N → loop layer scope (List.range N) x vars = none := by
    intro layer scope N x vars h hN
    obtain ⟨N, rfl⟩ : ∃ k, N = k + 1 := ⟨N - 1, by omega⟩
    simp only [List.range_succ_eq_map, loop, h, Option.bind_none]
  refine ⟨?_, ?_, ?_, ?_, ?_, ?_⟩
  · rintro es ds a b h
    unfold initT5
    by_cases ha : a.length = 2
    · have hb : b.length ≠ 2 := by rcases h with h | h <;> [exact absurd ha h; exact h]
      simp [ha, hdec _ _ _ hb]
    · simp [ha]
  · intro a b
    unfold initT5
    split_ifs with h1 h2
    · rfl
    · simp only [Option.bind_fun_none]
    · exact absurd rfl h2
  · intro es ds B B' n m ha hD hB
    have h0 : ∀ q ∈ ([] : List Param), Good q := by simp
    have he : encoder cfg [B', m] [] = some ([B', m, cfg.embDim], (adds [] (encCalls cfg)).map (varOf cfg)) :=
      encoder_ins (ps := []) h0 (.inl ha)
    have hg := good_adds h0 (good_encCalls (cfg := cfg))
    have key : decoder cfg [B', m, cfg.embDim] [B, n] ((adds [] (encCalls cfg)).map (varOf cfg)) = none := by
      have hs := good_adds (l := [Param.shared]) hg (good_one trivial)
      have h1 := good_adds hs (good_rel false)
      have h2 := good_adds h1 (good_ln false 0 .preSelf)
      have h3 := good_adds h2 (good_attn false 0 .decoderSelf)
      have h4 := good_adds h3 (good_ln false 0 .preCross)
      have e1 := relpos_ins (cfg := cfg) (e := false) hs
      have e2 := layerNorm_ins (cfg := cfg) (x := [B, n, cfg.embDim]) (scope := ["decoder".toList] ++ [layerName 0] ++ ["pre_self_attention_layer_norm".toList])
        h1 (p := .ln false 0 .preSelf) trivial rfl rfl rfl rfl
      have e3 := attention_ins (cfg := cfg) (B := B) (n := n) (m := n) (e := false) (l := 0) (k := .decoderSelf) h2
      have e4 := layerNorm_ins (cfg := cfg) (x := [B, n, cfg.embDim]) (scope := ["decoder".toList] ++ [layerName 0] ++ ["pre_cross_attention_layer_norm".toList])
        h3 (p := .ln false 0 .preCross) trivial rfl rfl rfl rfl
      have e5 := attention_batch (cfg := cfg) (n := n) (m := m) (e := false) (l := 0) (k := .cross) h4 hB
      unfold decoder
      simp only [List.length_cons, List.length_nil, Nat.reduceAdd, ne_eq, not_true_eq_false, if_false]
      rw [embed_ins (p := .shared) hg trivial rfl rfl rfl]
      obtain ⟨N, hN⟩ : ∃ k, cfg.numDec = k + 1 := ⟨cfg.numDec - 1, by omega⟩
      simp only [Option.bind_some, List.cons_append, List.nil_append, hN, List.range_succ_eq_map, loop]
      have hl : decLayer cfg [B', m, cfg.embDim] ["decoder".toList, "relpos_bias".toList] ["decoder".toList, layerName 0] [B, n, cfg.embDim]
          ((adds (adds [] (encCalls cfg)) [Param.shared]).map (varOf cfg)) = none := by
        unfold decLayer
        erw [e1]
        simp only [Option.bind_some]
        erw [e2]
        simp only [Option.bind_some]
        erw [e3]
        simp only [Option.bind_some, add, if_true]
        erw [e4]
        simp only [Option.bind_some]
        erw [e5]
        rfl
      erw [hl]
      rfl
    unfold initT5
    simp only [List.length_cons, List.length_nil, Nat.reduceAdd, ne_eq, not_true_eq_false, if_false, he, Option.bind_some, key, Option.map_none,
      ite_self]
  · intro es ds a b ha hl
    have hE : ∀ rel l y vs, encLayer cfg rel l y vs = none := by
      intro rel l y vs
      simp only [encLayer, mlp_none ha, Option.bind_none, Option.bind_fun_none, ite_self]
    have hD : ∀ enc rel l y vs, decLayer cfg enc rel l y vs = none := by
      intro enc rel l y vs
      simp only [decLayer, mlp_none ha, Option.bind_none, Option.bind_fun_none]
    unfold initT5
    rcases hl with hl | hl
    · have : ∀ t vs, encoder cfg t vs = none := by
        intro t vs
        simp only [encoder, hloop _ _ _ _ _ (fun l y vs => hE _ _ y vs) hl, Option.bind_none, Option.bind_fun_none, ite_self]
      simp only [this, Option.bind_none, ite_self]
    · have : ∀ enc t vs, decoder cfg enc t vs = none := by
        intro enc t vs
        simp only [decoder, hloop _ _ _ _ _ (fun l y vs => hD _ _ _ y vs) hl, Option.bind_none, Option.bind_fun_none, ite_self]
      simp only [this, Option.map_none, ite_self, Option.bind_fun_none]
  · intro a ha
    simp only [initLm, ne_eq, ha, not_false_eq_true, if_true]
  · intro a ha hl
    have hD : ∀ rel l y vs, lmLayer cfg rel l y vs = none := by
      intro rel l y vs
      simp only [lmLayer, mlp_none ha, Option.bind_none, Option.bind_fun_none]
    simp only [initLm, hloop _ _ _ _ _ (fun l y vs => hD _ _ y vs) hl, Option.bind_none, Option.bind_fun_none, ite_self]

/-! ### Logical axes -/

/-- The combinations of axis names that occur. -/
def combos : List (List Name) :=
  [["vocab".toList, "embed".toList], ["heads".toList, "relpos_buckets".toList], ["joined_kv".toList, "embed".toList],
    ["embed".toList, "joined_kv".toList], ["embed".toList, "mlp".toList], ["mlp".toList, "embed".toList], ["embed".toList],
    ["embed".toList, "vocab".toList]]

theorem axes_combo (p : Param) : axesOf p ∈ combos := by
  cases p with
  | attn e l k m => cases m <;> simp [axesOf, combos]
  | mlp e l o i => cases o <;> simp [axesOf, combos]
  | _ => simp [axesOf, combos]

theorem combo_all (P : List Name → Prop) [DecidablePred P] (h : ∀ l ∈ combos, P l) (p : Param) : P (axesOf p) := h _ (axes_combo p)

/-- **C114.** Every parameter has one axis name per dimension, no name twice, and a name stands for the same size in all parameters. -/
theorem C114_axes {Has : Param → Prop} {vars : List Var} (h : Are cfg Has vars) (v : Var) (hv : v ∈ vars) :
    v.axes.Nodup ∧ v.shape = v.axes.map (axisSize cfg) := by
  obtain ⟨p, -, rfl⟩ := (h.2 v).1 hv
  refine ⟨combo_all List.Nodup (by decide) p, ?_⟩
  cases p with
  | attn e l k m => cases m <;> rfl
  | mlp e l o i => cases o <;> rfl
  | _ => rfl

section
open Verif.AxisRules Verif.AxisRules.Spec

theorem foldl_done (names : List (Option Str)) (add : List Rule) (res : List (Option Axes))
    (h : ∀ i : Nat, res[i]? = some none → ∀ r ∈ add, names[i]? ≠ some (some r.1)) : add.foldl (step names) res = res := by
  induction add with
  | nil => rfl
  | cons r rest ih =>
    have hs : step names res r = res := by
      unfold step
      split
      · rfl
      · rename_i pos hpos
        rw [if_neg]
        intro hc
        simp only [Bool.and_eq_true, beq_iff_eq] at hc
        refine h pos hc.2 r List.mem_cons_self ?_
        obtain ⟨hlt, hp, -⟩ := List.findIdx?_eq_some_iff_getElem.1 hpos
        rw [List.getElem?_eq_getElem hlt]
        simpa using hp
    rw [List.foldl_cons, hs, ih fun i hi r hr => h i hi r (List.mem_cons_of_mem _ hr)]

/-- Where the standard rules put a dimension of a parameter of rank `rank`. -/
def meshOf (act par rank : Nat) (axis : Name) : Axes :=
  if axis ∈ modelNames then some ["model".toList]
  else if axis = "embed".toList then
    if act = 2 ∧ rank = 1 then some ["model".toList] else if par = 2 then some ["data".toList] else none
  else none

theorem mesh_axes {act par : Nat} {add rules : List Rule} (hr : AxisRules.standardRules act par add = .ok rules)
    (hadd : ∀ r ∈ add, r.1 ≠ "embed".toList) (p : Param) :
    logicalToMesh ((axesOf p).map some) rules = .ok ((axesOf p).map (meshOf act par (axesOf p).length)) := by
  have hd := (C75_dims act par add).1 ⟨rules, hr⟩
  have fin : ∀ base : List Rule, (∀ l ∈ combos, noDuplicates (l.map some) = true ∧
      (base.foldl (step (l.map some)) (List.replicate (l.map some).length none)).map (·.getD none) = l.map (meshOf act par l.length) ∧
      ∀ i < 2, (base.foldl (step (l.map some)) (List.replicate (l.map some).length none))[i]? = some none → l[i]? = some "embed".toList) →
      rules = base ++ add → logicalToMesh ((axesOf p).map some) rules = .ok ((axesOf p).map (meshOf act par (axesOf p).length)) := by
    intro base h1 h2
    obtain ⟨h3, h4, h5⟩ := h1 _ (axes_combo p)
    have hlen : (axesOf p).length ≤ 2 := combo_all (fun l => l.length ≤ 2) (by decide) p
    unfold logicalToMesh
    rw [if_pos h3, h2, List.foldl_append, foldl_done, h4]
    intro i hi r hr he
    rw [List.getElem?_map] at he
    by_cases h6 : i < 2
    · rw [h5 i h6 hi] at he
      simp only [Option.map_some, Option.some.injEq] at he
      exact hadd r hr he.symm
    · rw [List.getElem?_eq_none (by omega)] at he
      cases he
  obtain ⟨ha | ha, hp | hp⟩ := hd <;> subst ha hp <;> cases hr <;> exact fin _ (by decide) rfl

/-- **C114.** With the standard rules every parameter is partitioned as the documentation says: the dimension that is 'vocab', 'mlp', 'heads' or
'joined_kv' over the model axis; 'embed' over the model axis in the layer norms, if activations are partitioned in two dimensions, and otherwise over
the data axis, if parameters are partitioned in two dimensions.  Additional rules for other names change nothing. -/
theorem C114_partition {Has : Param → Prop} {vars : List Var} (h : Are cfg Has vars) (v : Var) (hv : v ∈ vars) {act par : Nat} {add rules : List Rule}
    (hr : AxisRules.standardRules act par add = .ok rules) (hadd : ∀ r ∈ add, r.1 ≠ "embed".toList) :
    logicalToMesh (v.axes.map some) rules = .ok (v.axes.map (meshOf act par v.shape.length)) := by
  have hl : v.shape.length = v.axes.length := by rw [(C114_axes h v hv).2, List.length_map]
  obtain ⟨p, -, rfl⟩ := (h.2 v).1 hv
  rw [hl]
  exact mesh_axes hr hadd p

/-- **C114.** If the vocabulary, the number of heads and the MLP dimension are multiples of the size of the model axis, and the embedding dimension is
one of that and of the data axis where it is partitioned, every dimension of every parameter is divided evenly. -/
theorem C114_even {Has : Param → Prop} {vars : List Var} (h : Are cfg Has vars) (v : Var) (hv : v ∈ vars) {act par : Nat} {add rules : List Rule}
    (hr : AxisRules.standardRules act par add = .ok rules) (hadd : ∀ r ∈ add, r.1 ≠ "embed".toList) (size : Str → Nat) (h1 : size "model".toList ∣ cfg.vocabSize)
    (h2 : size "model".toList ∣ cfg.numHeads) (h3 : size "model".toList ∣ cfg.mlpDim) (h4 : act = 2 → size "model".toList ∣ cfg.embDim)
    (h5 : par = 2 → size "data".toList ∣ cfg.embDim) :
    ∃ spec, logicalToMesh (v.axes.map some) rules = .ok spec ∧ spec.length = v.shape.length ∧
      ∀ (i : Nat) (a : Axes) (n : Nat), spec[i]? = some a → v.shape[i]? = some n → ((a.getD []).map size).prod ∣ n := by
  refine ⟨_, C114_partition h v hv hr hadd, by rw [(C114_axes h v hv).2]; simp, ?_⟩
  obtain ⟨p, -, rfl⟩ := (h.2 v).1 hv
  have one : ∀ (rank : Nat) (x : Name), x ∈ ["vocab".toList, "embed".toList, "joined_kv".toList, "mlp".toList, "heads".toList, "relpos_buckets".toList] →
      (((meshOf act par rank x).getD []).map size).prod ∣ axisSize cfg x := by
    intro rank x hx
    simp only [List.mem_cons, List.not_mem_nil, or_false] at hx
    have hj : size "model".toList ∣ cfg.numHeads * cfg.headDim := Dvd.dvd.mul_right h2 _
    rcases hx with rfl | rfl | rfl | rfl | rfl | rfl
    · simpa [meshOf, modelNames, axisSize] using h1
    · have e1 : axisSize cfg "embed".toList = cfg.embDim := rfl
      have e2 : meshOf act par rank "embed".toList =
        if act = 2 ∧ rank = 1 then some ["model".toList] else if par = 2 then some ["data".toList] else none := rfl
      rw [e1, e2]
      split_ifs with ha hp
      · simpa using h4 ha.1
      · simpa using h5 hp
      · simp
    · simpa [meshOf, modelNames, axisSize] using hj
    · simpa [meshOf, modelNames, axisSize] using h3
    · simpa [meshOf, modelNames, axisSize] using h2
    · simp [meshOf, modelNames, axisSize]
  have hsub : ∀ x ∈ axesOf p, x ∈ ["vocab".toList, "embed".toList, "joined_kv".toList, "mlp".toList, "heads".toList, "relpos_buckets".toList] := by
    exact combo_all (fun l => ∀ x ∈ l, x ∈ ["vocab".toList, "embed".toList, "joined_kv".toList, "mlp".toList, "heads".toList,
      "relpos_buckets".toList]) (by decide) p
  intro i a n hi hn
  have hs := (C114_axes h _ hv).2
  dsimp only at hs hi hn
  rw [hs, List.getElem?_map] at hn
  rw [List.getElem?_map] at hi
  cases hx : (axesOf p)[i]? with
  | none => rw [hx] at hi; cases hi
  | some x =>
    rw [hx] at hi hn
    cases hi
    cases hn
    exact one _ x (hsub x (List.mem_of_getElem? hx))
end

/-! ### The parameters fit the network -/

/-- **C114.** Parameters initialised with inputs of any shape can be applied to every batch: the network finds all parameters under their names, and
returns logits of shape [batch, length, vocabulary]. -/
theorem C114_apply (cfg : Config) {B0 n0 m0 : Nat} {es ds : Bool} {vars : List Var} (hi : initT5 cfg [B0, m0] [B0, n0] es ds = some vars)
    (hE : 0 < cfg.numEnc) (hD : 0 < cfg.numDec) (hs : es = true → ds = true) (arr : List Name → ND.NDArray ℝ)
    (harr : ∀ v ∈ vars, (arr v.path).shape = v.shape) (act : ℝ → ℝ) (acts : List (ℝ → ℝ)) (hacts : acts.length + 1 = cfg.numActs)
    (ex : ℝ → ℝ) (lg : ℕ → ℝ) (eps : ℝ) {B n m : Nat} {a : ArrT5.Batch} {rows : Fin B → Transformer.Input n m} (hb : ArrT5.Spec.BatchIs a rows)
    (hseg : a.encSeg ≠ none → a.decSeg ≠ none) :
    ∃ logits, ArrT5.apply ex lg (netConfig cfg eps) (paramsOf cfg act acts arr) a = some logits ∧ logits.shape = [B, n, cfg.vocabSize] := by
  obtain ⟨vars', hA, hall⟩ := C114_t5 cfg (by omega)
  have : vars' = vars := Option.some.inj ((hall B0 n0 m0 es ds hs).symm.trans hi)
  subst this
  have hp : ∀ p, HasT5 cfg p → (arr (pathOf p)).shape = shapeOf cfg p := fun p hp => harr _ ((hA.2 _).2 ⟨p, hp, rfl⟩)
  have hwi : ∀ (e : Bool) (l i : Nat), l < layersOf cfg e → i < cfg.numActs →
      (arr [side e, layerName l, "mlp".toList, wiName cfg.numActs i, "kernel".toList]).shape = [cfg.embDim, cfg.mlpDim] := by
    intro e l i hl hi
    rw [wi_path]
    refine hp (wiParam cfg e l i) ?_
    unfold wiParam
    split_ifs with h
    · exact .wi hl (.one h)
    · exact .wi hl (.many h hi)
  have hmlp : ∀ (e : Bool) (l : Nat), l < layersOf cfg e →
      ArrT5.Spec.MlpShapes (netConfig cfg eps) cfg.embDim (mlpOf arr act acts [side e, layerName l, "mlp".toList]) := by
    intro e l hl
    refine ⟨?_, ?_, hp (.mlp e l true none) (.wo hl)⟩
    · have := hwi e l 0 hl (by omega)
      rw [← hacts] at this
      exact this
    · intro u hu
      obtain ⟨⟨f, i⟩, hf, rfl⟩ := List.mem_map.1 hu
      have h1 : i < acts.length := by
        have := List.snd_lt_of_mem_zipIdx hf
        simpa using this
      have := hwi e l (i + 1) hl (by omega)
      rw [← hacts] at this
      exact this
  have hshapes : ArrT5.Spec.Shapes (netConfig cfg eps) cfg.embDim (paramsOf cfg act acts arr) := by
    refine ⟨hp .shared .shared, hp (.rel true 0) (.rel hE), ?_, hp (.finalLn true) (.finalLn true), hp (.rel false 0) (.rel hD), ?_,
      hp (.finalLn false) (.finalLn false), ?_⟩
    · intro l hl
      obtain ⟨i, hi, rfl⟩ := List.mem_map.1 hl
      have hi := List.mem_range.1 hi
      exact ⟨hp (.ln true i .preAttention) (.preAttention hi),
        ⟨hp (.attn true i .encoderSelf .q) (.encAttn _ hi), hp (.attn true i .encoderSelf .k) (.encAttn _ hi),
          hp (.attn true i .encoderSelf .v) (.encAttn _ hi), hp (.attn true i .encoderSelf .o) (.encAttn _ hi)⟩,
        hp (.ln true i .preMlp) (.preMlp (e := true) hi), hmlp true i hi⟩
    · intro l hl
      obtain ⟨i, hi, rfl⟩ := List.mem_map.1 hl
      have hi := List.mem_range.1 hi
      exact ⟨hp (.ln false i .preSelf) (.preSelf hi),
        ⟨hp (.attn false i .decoderSelf .q) (.decAttn _ hi), hp (.attn false i .decoderSelf .k) (.decAttn _ hi),
          hp (.attn false i .decoderSelf .v) (.decAttn _ hi), hp (.attn false i .decoderSelf .o) (.decAttn _ hi)⟩,
        hp (.ln false i .preCross) (.preCross hi),
        ⟨hp (.attn false i .cross .q) (.cross _ hi), hp (.attn false i .cross .k) (.cross _ hi),
          hp (.attn false i .cross .v) (.cross _ hi), hp (.attn false i .cross .o) (.cross _ hi)⟩,
        hp (.ln false i .preMlp) (.preMlp (e := false) hi), hmlp false i hi⟩
    · intro k hk
      cases hv : cfg.viaEmbedding with
      | true => simp [paramsOf, hv] at hk
      | false =>
        simp only [paramsOf, hv, Bool.false_eq_true, if_false, Option.some.injEq] at hk
        subst hk
        exact hp .logits (.logits hv)
  obtain ⟨net, hnet⟩ := ArrT5.C105_params hshapes
  obtain ⟨logits, Y, h1, h2, -⟩ := ArrT5.C105_apply (ex := ex) (lg := lg) hnet hb hseg
  exact ⟨logits, h1, h2.1⟩

/-! ### Concrete cases -/

/-- Two layers per tower, gated activations. -/
def demo : Config := ⟨8, 4, 2, 2, 2, 3, 6, 2, false⟩

example : ((initT5 demo [3, 5] [3, 7] false true).map fun vars => (vars.length, vars[1]?)) =
    some (52, some ⟨["encoder".toList, "relpos_bias".toList, "rel_embedding".toList], [2, 32], ["heads".toList, "relpos_buckets".toList]⟩) := by
  decide +kernel
example : ((initLm demo [3, 5]).map (·.length)) = some 22 := by decide +kernel
/-- One activation: a single kernel `wi`; no logits kernel. -/
example : ((initLm ⟨8, 4, 2, 0, 1, 3, 6, 1, true⟩ [3, 5]).map fun vars => vars.map (·.path.map String.ofList)) =
    some [["decoder", "token_embedder", "embedding"], ["decoder", "relpos_bias", "rel_embedding"],
      ["decoder", "layers_0", "pre_self_attention_layer_norm", "scale"], ["decoder", "layers_0", "self_attention", "query", "kernel"],
      ["decoder", "layers_0", "self_attention", "key", "kernel"], ["decoder", "layers_0", "self_attention", "value", "kernel"],
      ["decoder", "layers_0", "self_attention", "out", "kernel"], ["decoder", "layers_0", "pre_mlp_layer_norm", "scale"],
      ["decoder", "layers_0", "mlp", "wi", "kernel"], ["decoder", "layers_0", "mlp", "wo", "kernel"], ["decoder", "decoder_norm", "scale"]] := by
  decide +kernel

/-- The rules of the partitioning theorems: two model axes of sizes 2 and 2, with an additional rule. -/
example : ∃ rules, AxisRules.standardRules 2 2 [("extra".toList, some ["model".toList])] = .ok rules ∧
    ∀ r ∈ [(("extra".toList, some ["model".toList]) : AxisRules.Rule)], r.1 ≠ "embed".toList := ⟨_, rfl, by decide⟩

/-- Arrays that fit the variables; the demo batch of `ArrayT5` can be applied. -/
example (lg : ℕ → ℝ) : ∃ logits, ArrT5.apply Transformer.flushed lg (netConfig demo 1e-6)
    (paramsOf demo id [id] fun p => ArrT5.full ((((initT5 demo [1, 1] [1, 1] false false).getD []).find? fun v => v.path = p).elim [] (·.shape)) 1)
    ArrT5.demoBatch = some logits ∧ logits.shape = [2, 2, 8] := by
  obtain ⟨vars, hA, hall⟩ := C114_t5 demo (by decide)
  refine C114_apply demo (hall 1 1 1 false false (by simp)) (by decide) (by decide) (by simp) _ ?_ id [id] rfl _ lg _ ArrT5.demo_batch (by intro h; exact absurd rfl h)
  intro v hv
  rw [hall 1 1 1 false false (by simp)]
  cases hf : vars.find? (fun w => w.path = v.path) with
  | none => exact absurd (List.find?_eq_none.1 hf v hv) (by simp)
  | some w =>
    have hw : w.path = v.path := by simpa using List.find?_some hf
    have : w = v := List.inj_on_of_nodup_map hA.1 (List.mem_of_find?_eq_some hf) hv hw
    subst this
    simp only [Option.getD_some, hf]
    rfl

end Verif.InitT5
