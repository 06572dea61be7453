import Verif.Lemmas.InitScalable
import Verif.Lemmas.AdafactorStack
import Verif.Props.AxisRules
import Verif.Model.AdafactorAxes
/- C116: initialising the scalable T5 network. -/
namespace Verif.InitScalable
open Verif.InitT5 (Name Var param wiName layerName layerNorm embed relpos add loop attend)
open Verif.AdafactorStack.Spec (ins)
open Verif.AdafactorStack (ins_length ins_erase)

variable (cfg : Config)

theorem layerName_inj {i j : Nat} (h : layerName i = layerName j) : i = j := Importer.dec_inj (List.append_cancel_left h)

theorem layerName_ne {i : Nat} {c : Name} (h : c.head? ≠ some 'l') : c ≠ layerName i := by
  rintro rfl
  exact h rfl

/-- All paths start with the same components. -/
theorem under_layer {L : List Name → List Var} (hL : L = Spec.encLayer cfg.toConfig ∨ L = Spec.decLayer cfg.toConfig) (a c : Name) : Under [a] c (L [a, c]) := by
  have hat : ∀ rest dims, ∃ r, (Spec.at' [a, c] rest dims).path = [a] ++ c :: r := fun rest dims => ⟨rest.map String.toList, rfl⟩
  have hm : ∀ v ∈ Spec.mlp cfg.toConfig [a, c], ∃ r, v.path = [a] ++ c :: r := by
    intro v hv
    simp only [Spec.mlp, List.mem_append, List.mem_map, List.mem_singleton] at hv
    rcases hv with ⟨i, -, rfl⟩ | rfl
    · exact ⟨_, rfl⟩
    · exact hat _ _
  have ht : ∀ name, ∀ v ∈ Spec.attention cfg.toConfig [a, c] name, ∃ r, v.path = [a] ++ c :: r := by
    intro name v hv
    simp only [Spec.attention, List.mem_cons, List.not_mem_nil, or_false] at hv
    rcases hv with rfl | rfl | rfl | rfl <;> exact hat _ _
  rcases hL with rfl | rfl <;> intro v hv
  · simp only [Spec.encLayer, List.mem_append, List.mem_cons, List.not_mem_nil, or_false, Spec.relpos, Spec.norm] at hv
    rcases hv with ((((rfl | rfl) | h) | rfl) | h)
    · exact hat _ _
    · exact hat _ _
    · exact ht _ v h
    · exact hat _ _
    · exact hm v h
  · simp only [Spec.decLayer, List.mem_append, List.mem_cons, List.not_mem_nil, or_false, Spec.relpos, Spec.norm] at hv
    rcases hv with ((((((rfl | rfl) | h) | rfl) | h) | rfl) | h)
    · exact hat _ _
    · exact hat _ _
    · exact ht _ v h
    · exact hat _ _
    · exact ht _ v h
    · exact hat _ _
    · exact hm v h

theorem loop_fresh {layer : List Name → List Nat → List Var → Option (List Nat × List Var)} {L : List Name → List Var} {name : Name} {x : List Nat}
    (h : ∀ scope vars, Fresh scope vars → layer scope x vars = some (x, vars ++ L scope)) (hu : ∀ i, Under [name] (layerName i) (L [name, layerName i]))
    (l : List Nat) : ∀ vars, l.Nodup → (∀ i ∈ l, Fresh [name, layerName i] vars) →
      loop layer [name] l x vars = some (x, vars ++ l.flatMap fun i => L [name, layerName i]) := by
  induction l with
  | nil => intro vars _ _; simp [loop]
  | cons i l ih =>
    intro vars hn hf
    have e1 : layer ([name] ++ [layerName i]) x vars = _ := h [name, layerName i] vars (hf i (by simp))
    simp only [loop, e1, Option.bind_some]
    rw [ih _ (List.nodup_cons.1 hn).2 fun j hj => fresh_append.2 ⟨hf j (by simp [hj]), by
      refine fresh_under (scope := [name]) (hu i) fun hji => ?_
      exact (List.nodup_cons.1 hn).1 (layerName_inj hji ▸ hj)⟩]
    simp

theorem insertIdx_ins {α : Type} (ax : Nat) (k : α) (l : List α) (h : ax ≤ l.length) : l.insertIdx ax k = ins ax k l := by
  induction ax generalizing l with
  | zero => simp [ins]
  | succ ax ih =>
    cases l with
    | nil => simp at h
    | cons x l => simp [ins, ih l (by simpa using h)]

/-- Every axis has a name and every parameter a dimension. -/
theorem layer_shapes {L : List Name → List Var} (hL : L = Spec.encLayer cfg.toConfig ∨ L = Spec.decLayer cfg.toConfig) (scope : List Name) :
    ∀ v ∈ L scope, 1 ≤ v.shape.length ∧ v.axes.length = v.shape.length ∧ v.axes.Nodup ∧ "layers".toList ∉ v.axes := by
  have ht : ∀ name, ∀ v ∈ Spec.attention cfg.toConfig scope name,
      1 ≤ v.shape.length ∧ v.axes.length = v.shape.length ∧ v.axes.Nodup ∧ "layers".toList ∉ v.axes := by
    intro name v hv
    simp only [Spec.attention, List.mem_cons, List.not_mem_nil, or_false] at hv
    rcases hv with rfl | rfl | rfl | rfl <;> exact ⟨by simp [Spec.at'], rfl, by simp only [Spec.at', List.map_cons, List.map_nil]; decide,
      by simp only [Spec.at', List.map_cons, List.map_nil]; decide⟩
  have hm : ∀ v ∈ Spec.mlp cfg.toConfig scope, 1 ≤ v.shape.length ∧ v.axes.length = v.shape.length ∧ v.axes.Nodup ∧ "layers".toList ∉ v.axes := by
    intro v hv
    simp only [Spec.mlp, List.mem_append, List.mem_map, List.mem_singleton] at hv
    rcases hv with ⟨i, -, rfl⟩ | rfl
    · exact ⟨by simp, rfl, by dsimp only; decide, by dsimp only; decide⟩
    · exact ⟨by simp [Spec.at'], rfl, by simp only [Spec.at', List.map_cons, List.map_nil]; decide,
        by simp only [Spec.at', List.map_cons, List.map_nil]; decide⟩
  have hn : ∀ name, 1 ≤ (Spec.norm cfg.toConfig scope name).shape.length ∧
      (Spec.norm cfg.toConfig scope name).axes.length = (Spec.norm cfg.toConfig scope name).shape.length ∧
      (Spec.norm cfg.toConfig scope name).axes.Nodup ∧ "layers".toList ∉ (Spec.norm cfg.toConfig scope name).axes :=
    fun name => ⟨by simp [Spec.norm, Spec.at'], rfl, by simp only [Spec.norm, Spec.at', List.map_cons, List.map_nil]; decide,
      by simp only [Spec.norm, Spec.at', List.map_cons, List.map_nil]; decide⟩
  have hr : 1 ≤ (Spec.relpos cfg.toConfig scope).shape.length ∧
      (Spec.relpos cfg.toConfig scope).axes.length = (Spec.relpos cfg.toConfig scope).shape.length ∧
      (Spec.relpos cfg.toConfig scope).axes.Nodup ∧ "layers".toList ∉ (Spec.relpos cfg.toConfig scope).axes :=
    ⟨by simp [Spec.relpos, Spec.at'], rfl, by simp only [Spec.relpos, Spec.at', List.map_cons, List.map_nil]; decide,
      by simp only [Spec.relpos, Spec.at', List.map_cons, List.map_nil]; decide⟩
  rcases hL with rfl | rfl <;> intro v hv
  · simp only [Spec.encLayer, List.mem_append, List.mem_cons, List.not_mem_nil, or_false] at hv
    rcases hv with ((((rfl | rfl) | h) | rfl) | h)
    · exact hr
    · exact hn _
    · exact ht _ v h
    · exact hn _
    · exact hm v h
  · simp only [Spec.decLayer, List.mem_append, List.mem_cons, List.not_mem_nil, or_false] at hv
    rcases hv with ((((((rfl | rfl) | h) | rfl) | h) | rfl) | h)
    · exact hr
    · exact hn _
    · exact ht _ v h
    · exact hn _
    · exact ht _ v h
    · exact hn _
    · exact hm v h

theorem scan_fresh {layer : List Name → List Nat → List Var → Option (List Nat × List Var)} {L : List Name → List Var} {x : List Nat} {ax n : Nat}
    {scope : List Name} (h : layer scope x [] = some (x, L scope)) (hax : ax ≤ 1) (hL : L = Spec.encLayer cfg.toConfig ∨ L = Spec.decLayer cfg.toConfig)
    (vars : List Var) : scan layer ax n scope x vars = some (x, vars ++ (L scope).map (Spec.stackOf ax n)) := by
  have hs := layer_shapes cfg hL scope
  have h1 : (L scope).all (fun v => ax ≤ v.shape.length) = true := by
    rw [List.all_eq_true]
    intro v hv
    have := (hs v hv).1
    simp only [decide_eq_true_eq]
    omega
  simp only [scan, h, Option.bind_some, h1, and_self, if_true]
  congr 3
  refine List.map_congr_left fun v hv => ?_
  obtain ⟨a1, a2, -⟩ := hs v hv
  simp only [stack, Spec.stackOf, insertIdx_ins ax n v.shape (by omega), insertIdx_ins ax "layers".toList v.axes (by omega)]

/-- Outside of a tower. -/
def Outside (name : Name) (vars : List Var) : Prop := ∀ v ∈ vars, ∃ c rest, v.path = c :: rest ∧ c ≠ name

theorem outside_fresh {name c : Name} {vars : List Var} (h : Outside name vars) : Fresh [name, c] vars := by
  intro v hv hp
  obtain ⟨d, rest, h1, h2⟩ := h v hv
  rw [h1, List.cons_prefix_cons] at hp
  exact h2 hp.1.symm

theorem outside_append {name : Name} {a b : List Var} (h1 : Outside name a) (h2 : Outside name b) : Outside name (a ++ b) := by
  intro v hv
  rcases List.mem_append.1 hv with h | h
  · exact h1 v h
  · exact h2 v h

/-- The variables of the layers of a tower. -/
def layersOf (L : List Name → List Var) (name : Name) (n : Nat) : List Var :=
  if cfg.scanLayers then (L [name, name]).map (Spec.stackOf cfg.paramScanAxis n) else (List.range n).flatMap fun i => L [name, layerName i]

theorem tower_fresh {layer : List Name → List Nat → List Var → Option (List Nat × List Var)} {L : List Name → List Var} {x : List Nat} {name : Name} {n : Nat}
    (h : ∀ scope vars, Fresh scope vars → layer scope x vars = some (x, vars ++ L scope)) (hL : L = Spec.encLayer cfg.toConfig ∨ L = Spec.decLayer cfg.toConfig)
    (hax : cfg.scanLayers = true → cfg.paramScanAxis ≤ 1) {vars : List Var} (hv : Outside name vars) :
    tower cfg layer name n x vars = some (x, vars ++ layersOf cfg L name n) := by
  unfold tower layersOf
  cases hs : cfg.scanLayers with
  | true =>
    have := h [name, name] [] (fresh_nil _)
    exact scan_fresh cfg (by simpa using this) (hax hs) hL vars
  | false => exact loop_fresh h (fun i => under_layer cfg hL name (layerName i)) _ vars List.nodup_range fun i _ => outside_fresh hv

theorem layersOf_under {L : List Name → List Var} (hL : L = Spec.encLayer cfg.toConfig ∨ L = Spec.decLayer cfg.toConfig) (name : Name) (n : Nat) :
    ∀ v ∈ layersOf cfg L name n, ∃ c rest, v.path = name :: c :: rest ∧ (c = name ∨ ∃ i, c = layerName i) := by
  intro v hv
  unfold layersOf at hv
  split_ifs at hv
  · obtain ⟨w, hw, rfl⟩ := List.mem_map.1 hv
    obtain ⟨r, hr⟩ := under_layer cfg hL name name w hw
    exact ⟨name, r, hr, .inl rfl⟩
  · obtain ⟨i, -, hw⟩ := List.mem_flatMap.1 hv
    obtain ⟨r, hr⟩ := under_layer cfg hL name (layerName i) v hw
    exact ⟨_, r, hr, .inr ⟨i, rfl⟩⟩

theorem fresh_layers {L : List Name → List Var} (hL : L = Spec.encLayer cfg.toConfig ∨ L = Spec.decLayer cfg.toConfig) {name c : Name} (n : Nat)
    (h1 : c ≠ name) (h2 : c.head? ≠ some 'l') : Fresh [name, c] (layersOf cfg L name n) := by
  intro v hv hp
  obtain ⟨d, rest, hr, hd⟩ := layersOf_under cfg hL name n v hv
  rw [hr, List.cons_prefix_cons, List.cons_prefix_cons] at hp
  rcases hd with rfl | ⟨i, rfl⟩
  · exact h1 hp.2.1
  · exact layerName_ne h2 hp.2.1

/-- All variables. -/
def varsOf : List Var :=
  [Spec.embedding cfg.toConfig] ++ layersOf cfg (Spec.encLayer cfg.toConfig) "encoder".toList cfg.numEnc ++ [Spec.encNorm cfg.toConfig] ++
    layersOf cfg (Spec.decLayer cfg.toConfig) "decoder".toList cfg.numDec ++ [Spec.decNorm cfg.toConfig] ++ Spec.head cfg.toConfig

theorem init_eq (hN : 0 < cfg.numActs) (hax : cfg.scanLayers = true → cfg.paramScanAxis ≤ 1) (B n m : Nat) (es ds : Bool) (hs : es = true → ds = true) :
    init cfg [B, m] [B, n] es ds = some (varsOf cfg) := by
  have hemb : Outside "encoder".toList [Spec.embedding cfg.toConfig] := by
    intro v hv
    rw [List.mem_singleton.1 hv]
    exact ⟨_, _, rfl, by decide⟩
  have e0 : embed cfg.toConfig ["token_embedder".toList] [B, m] [] = some ([B, m, cfg.embDim], [Spec.embedding cfg.toConfig]) := by
    simp only [embed, param_fresh (fresh_nil _), Option.map_some]
    rfl
  have e1 := tower_fresh cfg (n := cfg.numEnc) (fun scope vars h => encLayer_fresh cfg h hN B m) (.inl rfl) hax hemb
  have f2 : Fresh (["encoder".toList] ++ ["encoder_norm".toList]) ([Spec.embedding cfg.toConfig] ++
      layersOf cfg (Spec.encLayer cfg.toConfig) "encoder".toList cfg.numEnc) :=
    fresh_append.2 ⟨outside_fresh hemb, fresh_layers cfg (.inl rfl) _ (by decide) (by decide)⟩
  have e2 := norm_fresh cfg (scope := ["encoder".toList]) (name := "encoder_norm") f2 B m
  simp only [List.cons_append, List.nil_append] at e2
  have henc : encoder cfg [B, m] [] = some ([B, m, cfg.embDim], [Spec.embedding cfg.toConfig] ++
      layersOf cfg (Spec.encLayer cfg.toConfig) "encoder".toList cfg.numEnc ++ [Spec.encNorm cfg.toConfig]) := by
    simp only [encoder, List.length_cons, List.length_nil, Nat.zero_add, Nat.reduceAdd, ne_eq, not_true_eq_false, if_false, e0, Option.bind_some, e1,
      List.cons_append, List.nil_append, e2]
    rfl
  have hout : Outside "decoder".toList ([Spec.embedding cfg.toConfig] ++
      layersOf cfg (Spec.encLayer cfg.toConfig) "encoder".toList cfg.numEnc ++ [Spec.encNorm cfg.toConfig]) := by
    refine outside_append (outside_append ?_ ?_) ?_
    · intro v hv
      rw [List.mem_singleton.1 hv]
      exact ⟨_, _, rfl, by decide⟩
    · intro v hv
      obtain ⟨c, rest, hr, -⟩ := layersOf_under cfg (.inl rfl) _ _ v hv
      exact ⟨_, _, hr, by decide⟩
    · intro v hv
      rw [List.mem_singleton.1 hv]
      exact ⟨_, _, rfl, by decide⟩
  have e3 : ∀ rest, embed cfg.toConfig ["token_embedder".toList] [B, n] (Spec.embedding cfg.toConfig :: rest) =
      some ([B, n, cfg.embDim], Spec.embedding cfg.toConfig :: rest) := by
    intro rest
    have h1 : (Spec.embedding cfg.toConfig :: rest).find? (fun v => v.path = ["token_embedder".toList] ++ ["embedding".toList]) =
        some (Spec.embedding cfg.toConfig) := by
      rw [List.find?_cons_of_pos]
      exact decide_eq_true rfl
    have h2 : (Spec.embedding cfg.toConfig).shape = [cfg.vocabSize, cfg.embDim] := rfl
    simp only [embed, param, h1, h2, if_true, Option.map_some]
    rfl
  have e4 := tower_fresh cfg (n := cfg.numDec) (fun scope vars h => decLayer_fresh cfg h hN B n m) (.inr rfl) hax hout
  have f5 : ∀ c : Name, c ≠ "decoder".toList → c.head? ≠ some 'l' → Fresh (["decoder".toList] ++ [c]) ([Spec.embedding cfg.toConfig] ++
      layersOf cfg (Spec.encLayer cfg.toConfig) "encoder".toList cfg.numEnc ++ [Spec.encNorm cfg.toConfig] ++
      layersOf cfg (Spec.decLayer cfg.toConfig) "decoder".toList cfg.numDec) :=
    fun c h1 h2 => fresh_append.2 ⟨outside_fresh hout, fresh_layers cfg (.inr rfl) _ h1 h2⟩
  have e5 := norm_fresh cfg (scope := ["decoder".toList]) (name := "decoder_norm") (f5 _ (by decide) (by decide)) B n
  have f6 : ∀ v ∈ layersOf cfg (Spec.decLayer cfg.toConfig) "decoder".toList cfg.numDec, ¬ ["decoder".toList, "logits_dense".toList] <+: v.path := by
    intro v hv hp
    obtain ⟨d, rest, hr, hd⟩ := layersOf_under cfg (.inr rfl) _ _ v hv
    rw [hr, List.cons_prefix_cons, List.cons_prefix_cons] at hp
    rcases hd with rfl | ⟨i, rfl⟩
    · exact absurd hp.2.1 (by decide)
    · have h2 : List.take 2 (layerName i) = ['l', 'a'] := rfl
      rw [← hp.2.1] at h2
      exact absurd h2 (by decide)
  have hdec : decoder cfg [B, m, cfg.embDim] [B, n] ([Spec.embedding cfg.toConfig] ++
      layersOf cfg (Spec.encLayer cfg.toConfig) "encoder".toList cfg.numEnc ++ [Spec.encNorm cfg.toConfig]) =
      some ([B, n, cfg.vocabSize], varsOf cfg) := by
    have h3 := e3 (layersOf cfg (Spec.encLayer cfg.toConfig) "encoder".toList cfg.numEnc ++ [Spec.encNorm cfg.toConfig])
    simp only [List.cons_append, List.nil_append] at h3 e4 e5
    simp only [decoder, List.length_cons, List.length_nil, Nat.zero_add, Nat.reduceAdd, ne_eq, not_true_eq_false, if_false, List.cons_append, List.nil_append,
      h3, Option.bind_some, e4, e5]
    unfold logits
    cases hv : cfg.viaEmbedding with
    | true =>
      have hl : [B, n, cfg.embDim].getLast? = some cfg.embDim := rfl
      simp only [if_true, hl, Option.bind_some, varsOf, Spec.head, hv, List.append_nil]
      rfl
    | false =>
      have f7 : Fresh (["decoder".toList] ++ ["logits_dense".toList]) ([Spec.embedding cfg.toConfig] ++
          layersOf cfg (Spec.encLayer cfg.toConfig) "encoder".toList cfg.numEnc ++ [Spec.encNorm cfg.toConfig] ++
          layersOf cfg (Spec.decLayer cfg.toConfig) "decoder".toList cfg.numDec ++ [Spec.norm cfg.toConfig ["decoder".toList] "decoder_norm"]) := by
        refine fresh_append.2 ⟨fresh_append.2 ⟨outside_fresh hout, f6⟩, ?_⟩
        intro v hv hp
        rw [List.mem_singleton.1 hv] at hp
        simp only [Spec.norm, Spec.at', List.map_cons, List.map_nil, List.cons_append, List.nil_append, List.cons_prefix_cons] at hp
        exact absurd hp.2.1 (by decide)
      have h7 := dense_last f7 [cfg.vocabSize] ["embed".toList, "vocab".toList] B n cfg.embDim
      simp only [List.cons_append, List.nil_append] at h7
      simp only [Bool.false_eq_true, if_false, List.cons_append, List.nil_append, h7, varsOf, Spec.head, hv]
      rfl
  have hseg : (es && !ds) = false := by
    cases es with
    | false => rfl
    | true => rw [hs rfl]; rfl
  simp only [init, List.length_cons, List.length_nil, Nat.zero_add, Nat.reduceAdd, ne_eq, not_true_eq_false, if_false, henc, Option.bind_some, hseg,
    Bool.false_eq_true, hdec, Option.map_some]

/-- **C116.** With `scan_layers=False` the network has these parameters, whatever the input shapes. -/
theorem C116_separate (hs : cfg.scanLayers = false) (hN : 0 < cfg.numActs) (B n m : Nat) (es ds : Bool) (h : es = true → ds = true) :
    init cfg [B, m] [B, n] es ds = some (Spec.separate cfg.toConfig) := by
  rw [init_eq cfg hN (fun h => by rw [hs] at h; cases h) B n m es ds h]
  simp only [varsOf, layersOf, hs, Bool.false_eq_true, if_false]
  rfl

/-- **C116.** With `scan_layers=True` it has these. -/
theorem C116_stacked (hs : cfg.scanLayers = true) (hax : cfg.paramScanAxis ≤ 1) (hN : 0 < cfg.numActs) (B n m : Nat) (es ds : Bool) (h : es = true → ds = true) :
    init cfg [B, m] [B, n] es ds = some (Spec.stacked cfg.toConfig cfg.paramScanAxis) := by
  rw [init_eq cfg hN (fun _ => hax) B n m es ds h]
  simp only [varsOf, layersOf, hs, if_true]
  rfl

/-- **C116.** Only the first two positions are possible for the layers: the scales of the layer norms have one dimension. -/
theorem C116_axis (hs : cfg.scanLayers = true) (hax : 1 < cfg.paramScanAxis) (hN : 0 < cfg.numActs) (a b : List Nat) (es ds : Bool) :
    init cfg a b es ds = none := by
  by_cases ha : a.length = 2
  swap
  · simp only [init, ne_eq, ha, not_false_eq_true, if_true]
  obtain ⟨B, m, rfl⟩ := List.length_eq_two.1 ha
  have e0 : embed cfg.toConfig ["token_embedder".toList] [B, m] [] = some ([B, m, cfg.embDim], [Spec.embedding cfg.toConfig]) := by
    simp only [embed, param_fresh (fresh_nil _), Option.map_some]
    rfl
  have e1 := encLayer_fresh cfg (fresh_nil ["encoder".toList, "encoder".toList]) hN B m
  have h2 : (Spec.encLayer cfg.toConfig ["encoder".toList, "encoder".toList]).all (fun v => cfg.paramScanAxis ≤ v.shape.length) = false := by
    rw [List.all_eq_false]
    refine ⟨Spec.norm cfg.toConfig ["encoder".toList, "encoder".toList] "pre_attention_layer_norm", ?_, ?_⟩
    · simp [Spec.encLayer]
    · have : (Spec.norm cfg.toConfig ["encoder".toList, "encoder".toList] "pre_attention_layer_norm").shape.length = 1 := rfl
      simp only [decide_eq_true_eq, this]
      omega
  have h3 : encoder cfg [B, m] [] = none := by
    simp only [List.nil_append] at e1
    simp only [encoder, List.length_cons, List.length_nil, Nat.zero_add, Nat.reduceAdd, ne_eq, not_true_eq_false, if_false, e0, Option.bind_some, tower, hs,
      if_true, scan, e1, h2, Bool.false_eq_true, and_false, Option.bind_none]
  simp only [init, h3, Option.bind_none, ite_self]

/-- **C116.** Segment ids for the encoder but not for the decoder raise an error, and so do inputs that are not two-dimensional. -/
theorem C116_segments (a b : List Nat) (es ds : Bool) (h : es = true ∧ ds = false ∨ a.length ≠ 2 ∨ b.length ≠ 2) : init cfg a b es ds = none := by
  unfold init
  by_cases ha : a.length = 2
  swap
  · rw [if_pos ha]
  rw [if_neg (by simp [ha])]
  rcases encoder cfg a [] with - | e
  · rfl
  simp only [Option.bind_some]
  split_ifs with hb
  · rfl
  rcases h with ⟨rfl, rfl⟩ | h | h
  · simp at hb
  · exact absurd ha h
  · simp only [decoder, h, if_true, ne_eq, not_false_eq_true, Option.map_none]

/-- The paths of a list of variables. -/
def paths (vars : List Var) : List (List Name) := vars.map Var.path

theorem nodup_append {a b : List Var} (ha : (paths a).Nodup) (hb : (paths b).Nodup) (h : ∀ v ∈ a, ∀ w ∈ b, v.path ≠ w.path) :
    (paths (a ++ b)).Nodup := by
  rw [paths, List.map_append, List.nodup_append]
  refine ⟨ha, hb, ?_⟩
  intro x hx y hy
  obtain ⟨v, hv, rfl⟩ := List.mem_map.1 hx
  obtain ⟨w, hw, rfl⟩ := List.mem_map.1 hy
  exact h v hv w hw

theorem fixed_nodup {fixed : List (List Name)} (h : fixed.Nodup) (hm : ∀ p ∈ fixed, p.head? ≠ some "mlp".toList) (scope : List Name) :
    (fixed.map (scope ++ ·) ++ paths (Spec.mlp cfg.toConfig scope)).Nodup := by
  rw [List.nodup_append]
  refine ⟨h.map fun a b hab => List.append_cancel_left hab, ?_, ?_⟩
  · simp only [paths, Spec.mlp, List.map_append, List.map_map, List.map_cons, List.map_nil]
    rw [List.nodup_append]
    refine ⟨?_, List.nodup_singleton _, ?_⟩
    · refine List.Nodup.map_on ?_ List.nodup_range
      intro i hi j hj hij
      have h1 := List.append_cancel_left (hij : scope ++ _ = scope ++ _)
      simp only [List.cons.injEq, true_and, and_true] at h1
      exact wiName_inj (List.mem_range.1 hi) (List.mem_range.1 hj) h1
    · intro x hx y hy hxy
      obtain ⟨i, -, rfl⟩ := List.mem_map.1 hx
      rw [List.mem_singleton.1 hy] at hxy
      have h1 := List.append_cancel_left (hxy : scope ++ _ = scope ++ _)
      simp only [List.map_cons, List.cons.injEq, true_and, and_true] at h1
      exact wiName_wo _ _ h1.1.symm
  · intro x hx y hy hxy
    obtain ⟨p, hp, rfl⟩ := List.mem_map.1 hx
    obtain ⟨v, hv, rfl⟩ := List.mem_map.1 hy
    have : ∃ r, v.path = scope ++ "mlp".toList :: r := by
      simp only [Spec.mlp, List.mem_append, List.mem_map, List.mem_singleton] at hv
      rcases hv with ⟨i, -, rfl⟩ | rfl
      · exact ⟨_, rfl⟩
      · exact ⟨_, rfl⟩
    obtain ⟨r, hr⟩ := this
    rw [hr] at hxy
    have h1 := List.append_cancel_left hxy
    exact hm p hp (by rw [h1]; rfl)

theorem layer_nodup {L : List Name → List Var} (hL : L = Spec.encLayer cfg.toConfig ∨ L = Spec.decLayer cfg.toConfig) (scope : List Name) :
    (paths (L scope)).Nodup := by
  have hp : ∀ a b : List Var, paths (a ++ b) = paths a ++ paths b := fun a b => List.map_append
  rcases hL with rfl | rfl
  · rw [Spec.encLayer, hp]
    have := fixed_nodup cfg (fixed := [["relpos_bias".toList, "rel_embedding".toList], ["pre_attention_layer_norm".toList, "scale".toList],
      ["attention".toList, "query".toList, "kernel".toList], ["attention".toList, "key".toList, "kernel".toList],
      ["attention".toList, "value".toList, "kernel".toList], ["attention".toList, "out".toList, "kernel".toList],
      ["pre_mlp_layer_norm".toList, "scale".toList]]) (by decide) (by decide) scope
    exact this
  · rw [Spec.decLayer, hp]
    have := fixed_nodup cfg (fixed := [["relpos_bias".toList, "rel_embedding".toList], ["pre_self_attention_layer_norm".toList, "scale".toList],
      ["self_attention".toList, "query".toList, "kernel".toList], ["self_attention".toList, "key".toList, "kernel".toList],
      ["self_attention".toList, "value".toList, "kernel".toList], ["self_attention".toList, "out".toList, "kernel".toList],
      ["pre_cross_attention_layer_norm".toList, "scale".toList],
      ["encoder_decoder_attention".toList, "query".toList, "kernel".toList], ["encoder_decoder_attention".toList, "key".toList, "kernel".toList],
      ["encoder_decoder_attention".toList, "value".toList, "kernel".toList], ["encoder_decoder_attention".toList, "out".toList, "kernel".toList],
      ["pre_mlp_layer_norm".toList, "scale".toList]]) (by decide) (by decide) scope
    exact this

theorem layersOf_nodup {L : List Name → List Var} (hL : L = Spec.encLayer cfg.toConfig ∨ L = Spec.decLayer cfg.toConfig) (name : Name) (n : Nat) :
    (paths (layersOf cfg L name n)).Nodup := by
  unfold layersOf
  split_ifs
  · rw [paths, List.map_map]
    exact layer_nodup cfg hL [name, name]
  · induction n with
    | zero => simp [paths]
    | succ n ih =>
      rw [List.range_succ, List.flatMap_append, List.flatMap_singleton]
      refine nodup_append ih (layer_nodup cfg hL _) ?_
      intro v hv w hw hvw
      obtain ⟨i, hi, hv⟩ := List.mem_flatMap.1 hv
      obtain ⟨r1, e1⟩ := under_layer cfg hL name (layerName i) v hv
      obtain ⟨r2, e2⟩ := under_layer cfg hL name (layerName n) w hw
      rw [e1, e2] at hvw
      have h1 := List.append_cancel_left hvw
      simp only [List.cons.injEq] at h1
      have := layerName_inj h1.1
      have := List.mem_range.1 hi
      omega

theorem varsOf_nodup : (paths (varsOf cfg)).Nodup := by
  have hE := layersOf_under cfg (L := Spec.encLayer cfg.toConfig) (.inl rfl) "encoder".toList cfg.numEnc
  have hD := layersOf_under cfg (L := Spec.decLayer cfg.toConfig) (.inr rfl) "decoder".toList cfg.numDec
  have hH : ∀ v ∈ Spec.head cfg.toConfig, v.path = ["decoder".toList, "logits_dense".toList, "kernel".toList] := by
    intro v hv
    unfold Spec.head at hv
    split_ifs at hv
    · cases hv
    · rw [List.mem_singleton.1 hv]; rfl
  have hl : ∀ i, layerName i = 'l' :: 'a' :: (layerName i).drop 2 := fun i => rfl
  refine nodup_append (nodup_append (nodup_append (nodup_append (nodup_append ?_ ?_ ?_) ?_ ?_) ?_ ?_) ?_ ?_) ?_ ?_
  · exact List.nodup_singleton _
  · exact layersOf_nodup cfg (.inl rfl) _ _
  · intro v hv w hw hvw
    obtain ⟨c, r, e, -⟩ := hE w hw
    rw [List.mem_singleton.1 hv, e] at hvw
    exact absurd (List.cons.inj hvw).1 (by decide)
  · exact List.nodup_singleton _
  · intro v hv w hw hvw
    rw [List.mem_singleton.1 hw] at hvw
    rcases List.mem_append.1 hv with hv | hv
    · rw [List.mem_singleton.1 hv] at hvw
      exact absurd (List.cons.inj hvw).1 (by decide)
    · obtain ⟨c, r, e, hc⟩ := hE v hv
      rw [e] at hvw
      have h1 := (List.cons.inj (List.cons.inj hvw).2).1
      rcases hc with rfl | ⟨i, rfl⟩
      · exact absurd h1 (by decide)
      · exact layerName_ne (by decide) h1.symm
  · exact layersOf_nodup cfg (.inr rfl) _ _
  · intro v hv w hw hvw
    obtain ⟨c, r, e, hc⟩ := hD w hw
    rw [e] at hvw
    rcases List.mem_append.1 hv with hv | hv
    · rcases List.mem_append.1 hv with hv | hv
      · rw [List.mem_singleton.1 hv] at hvw
        exact absurd (List.cons.inj hvw).1 (by decide)
      · obtain ⟨c', r', e', -⟩ := hE v hv
        rw [e'] at hvw
        exact absurd (List.cons.inj hvw).1 (by decide)
    · rw [List.mem_singleton.1 hv] at hvw
      exact absurd (List.cons.inj hvw).1 (by decide)
  · exact List.nodup_singleton _
  · intro v hv w hw hvw
    rw [List.mem_singleton.1 hw] at hvw
    rcases List.mem_append.1 hv with hv | hv
    · rcases List.mem_append.1 hv with hv | hv
      · rcases List.mem_append.1 hv with hv | hv
        · rw [List.mem_singleton.1 hv] at hvw
          exact absurd (List.cons.inj hvw).1 (by decide)
        · obtain ⟨c', r', e', -⟩ := hE v hv
          rw [e'] at hvw
          exact absurd (List.cons.inj hvw).1 (by decide)
      · rw [List.mem_singleton.1 hv] at hvw
        exact absurd (List.cons.inj hvw).1 (by decide)
    · obtain ⟨c, r, e, hc⟩ := hD v hv
      rw [e] at hvw
      have h1 := (List.cons.inj (List.cons.inj hvw).2).1
      rcases hc with rfl | ⟨i, rfl⟩
      · exact absurd h1 (by decide)
      · exact layerName_ne (by decide) h1.symm
  · unfold Spec.head
    split_ifs
    · exact List.nodup_nil
    · exact List.nodup_singleton _
  · intro v hv w hw hvw
    rw [hH w hw] at hvw
    rcases List.mem_append.1 hv with hv | hv
    · rcases List.mem_append.1 hv with hv | hv
      · rcases List.mem_append.1 hv with hv | hv
        · rcases List.mem_append.1 hv with hv | hv
          · rw [List.mem_singleton.1 hv] at hvw
            exact absurd (List.cons.inj hvw).1 (by decide)
          · obtain ⟨c', r', e', -⟩ := hE v hv
            rw [e'] at hvw
            exact absurd (List.cons.inj hvw).1 (by decide)
        · rw [List.mem_singleton.1 hv] at hvw
          exact absurd (List.cons.inj hvw).1 (by decide)
      · obtain ⟨c, r, e, hc⟩ := hD v hv
        rw [e] at hvw
        have h1 := (List.cons.inj (List.cons.inj hvw).2).1
        rcases hc with rfl | ⟨i, rfl⟩
        · exact absurd h1 (by decide)
        · rw [hl i] at h1
          exact absurd (List.cons.inj (List.cons.inj h1).2).1 (by decide)
    · rw [List.mem_singleton.1 hv] at hvw
      exact absurd (List.cons.inj (List.cons.inj hvw).2).1 (by decide)

theorem ins_nodup {α : Type} {k : α} {l : List α} (h : l.Nodup) (hk : k ∉ l) (ax : Nat) : (ins ax k l).Nodup := by
  induction l generalizing ax with
  | nil => cases ax <;> simp [ins]
  | cons x l ih =>
    have hk' : k ≠ x ∧ k ∉ l := by simpa using hk
    have hx := List.nodup_cons.1 h
    cases ax with
    | zero => simp only [ins]; exact List.nodup_cons.2 ⟨hk, h⟩
    | succ ax =>
      simp only [ins]
      refine List.nodup_cons.2 ⟨?_, ih hx.2 hk'.2 ax⟩
      intro hm
      have : x = k ∨ x ∈ l := by
        clear ih h hk hx hk'
        induction l generalizing ax with
        | nil => cases ax <;> simp [ins] at hm <;> exact .inl hm
        | cons y l ih2 =>
          cases ax with
          | zero => simpa [ins] using hm
          | succ ax =>
            simp only [ins, List.mem_cons] at hm
            rcases hm with hm | hm
            · exact .inr (by simp [hm])
            · rcases ih2 ax hm with h | h
              · exact .inl h
              · exact .inr (by simp [h])
      rcases this with h1 | h1
      · exact hk'.1 h1.symm
      · exact hx.1 h1

theorem plain_shapes : ∀ v ∈ [Spec.embedding cfg.toConfig, Spec.encNorm cfg.toConfig, Spec.decNorm cfg.toConfig] ++ Spec.head cfg.toConfig,
    v.axes.length = v.shape.length ∧ v.axes.Nodup ∧ "layers".toList ∉ v.axes := by
  intro v hv
  have hh : v ∈ Spec.head cfg.toConfig → v = Spec.at' ["decoder".toList] ["logits_dense", "kernel"] [("embed", cfg.embDim), ("vocab", cfg.vocabSize)] := by
    intro h
    unfold Spec.head at h
    split_ifs at h
    · cases h
    · exact List.mem_singleton.1 h
  simp only [List.mem_append, List.mem_cons, List.not_mem_nil, or_false] at hv
  rcases hv with (rfl | rfl | rfl) | h
  · exact ⟨rfl, by simp only [Spec.embedding, Spec.at', List.map_cons, List.map_nil]; decide,
      by simp only [Spec.embedding, Spec.at', List.map_cons, List.map_nil]; decide⟩
  · exact ⟨rfl, by simp only [Spec.encNorm, Spec.norm, Spec.at', List.map_cons, List.map_nil]; decide,
      by simp only [Spec.encNorm, Spec.norm, Spec.at', List.map_cons, List.map_nil]; decide⟩
  · exact ⟨rfl, by simp only [Spec.decNorm, Spec.norm, Spec.at', List.map_cons, List.map_nil]; decide,
      by simp only [Spec.decNorm, Spec.norm, Spec.at', List.map_cons, List.map_nil]; decide⟩
  · rw [hh h]
    exact ⟨rfl, by simp only [Spec.at', List.map_cons, List.map_nil]; decide, by simp only [Spec.at', List.map_cons, List.map_nil]; decide⟩

theorem varsOf_shapes (hax : cfg.scanLayers = true → cfg.paramScanAxis ≤ 1) : ∀ v ∈ varsOf cfg, v.axes.length = v.shape.length ∧ v.axes.Nodup := by
  have hp := plain_shapes cfg
  have hl : ∀ (L : List Name → List Var) (name : Name) (n : Nat), (L = Spec.encLayer cfg.toConfig ∨ L = Spec.decLayer cfg.toConfig) →
      ∀ v ∈ layersOf cfg L name n, v.axes.length = v.shape.length ∧ v.axes.Nodup := by
    intro L name n hL v hv
    unfold layersOf at hv
    split_ifs at hv with hs
    · obtain ⟨w, hw, rfl⟩ := List.mem_map.1 hv
      obtain ⟨h1, h2, h3, h4⟩ := layer_shapes cfg hL _ w hw
      exact ⟨by simp only [Spec.stackOf, ins_length, h2], ins_nodup h3 h4 _⟩
    · obtain ⟨i, -, hw⟩ := List.mem_flatMap.1 hv
      obtain ⟨h1, h2, h3, h4⟩ := layer_shapes cfg hL _ v hw
      exact ⟨h2, h3⟩
  intro v hv
  simp only [varsOf, List.mem_append, List.mem_singleton] at hv
  rcases hv with ((((rfl | h) | rfl) | h) | rfl) | h
  · exact ⟨(hp _ (by simp)).1, (hp _ (by simp)).2.1⟩
  · exact hl _ _ _ (.inl rfl) v h
  · exact ⟨(hp _ (by simp)).1, (hp _ (by simp)).2.1⟩
  · exact hl _ _ _ (.inr rfl) v h
  · exact ⟨(hp _ (by simp)).1, (hp _ (by simp)).2.1⟩
  · exact ⟨(hp v (by simp [h])).1, (hp v (by simp [h])).2.1⟩

/-- **C116.** No path is used twice, and every dimension of a parameter has a name of its own. -/
theorem C116_names (hN : 0 < cfg.numActs) (B n m : Nat) (es ds : Bool) (vars : List Var) (h : init cfg [B, m] [B, n] es ds = some vars) :
    (vars.map Var.path).Nodup ∧ ∀ v ∈ vars, v.axes.length = v.shape.length ∧ v.axes.Nodup := by
  have hs : es = true → ds = true := by
    intro he
    by_contra hc
    rw [C116_segments cfg _ _ es ds (.inl ⟨he, by simpa using hc⟩)] at h
    cases h
  have hax : cfg.scanLayers = true → cfg.paramScanAxis ≤ 1 := by
    intro hc
    by_contra hd
    rw [C116_axis cfg hc (by omega) hN] at h
    cases h
  rw [init_eq cfg hN hax B n m es ds hs] at h
  cases h
  exact ⟨varsOf_nodup cfg, varsOf_shapes cfg hax⟩

/-- A variable below a scope. -/
def below (scope : List Name) (v : Var) : Var := ⟨scope ++ v.path, v.shape, v.axes⟩

theorem layer_below {L : List Name → List Var} (hL : L = Spec.encLayer cfg.toConfig ∨ L = Spec.decLayer cfg.toConfig) (scope : List Name) :
    L scope = (L []).map (below scope) := by
  have hm : Spec.mlp cfg.toConfig scope = (Spec.mlp cfg.toConfig []).map (below scope) := by
    simp only [Spec.mlp, List.map_append, List.map_map]
    rfl
  rcases hL with rfl | rfl
  · simp only [Spec.encLayer, List.map_append, hm]
    rfl
  · simp only [Spec.decLayer, List.map_append, hm]
    rfl

theorem mem_layer {L : List Name → List Var} (hL : L = Spec.encLayer cfg.toConfig ∨ L = Spec.decLayer cfg.toConfig) (a c : Name) (rest : List Name)
    (s : List Nat) (ax : List Name) (c' : Name) : (⟨a :: c :: rest, s, ax⟩ : Var) ∈ L [a, c'] ↔ c = c' ∧ (⟨rest, s, ax⟩ : Var) ∈ L [] := by
  rw [layer_below cfg hL, List.mem_map]
  constructor
  · rintro ⟨w, hw, he⟩
    simp only [below, List.cons_append, List.nil_append, Var.mk.injEq, List.cons.injEq, true_and] at he
    obtain ⟨⟨h1, h2⟩, h3, h4⟩ := he
    subst h1 h2 h3 h4
    exact ⟨rfl, hw⟩
  · rintro ⟨rfl, hw⟩
    exact ⟨_, hw, rfl⟩

theorem mem_stacked {L : List Name → List Var} (hL : L = Spec.encLayer cfg.toConfig ∨ L = Spec.decLayer cfg.toConfig) (a : Name) (rest : List Name)
    (s : List Nat) (axes : List Name) (ax n : Nat) (hax : ax ≤ 1) :
    (ax ≤ s.length ∧ ax ≤ axes.length ∧ (⟨a :: a :: rest, ins ax n s, ins ax "layers".toList axes⟩ : Var) ∈ (L [a, a]).map (Spec.stackOf ax n)) ↔
      (⟨rest, s, axes⟩ : Var) ∈ L [] := by
  rw [List.mem_map]
  constructor
  · rintro ⟨h1, h2, w, hw, he⟩
    obtain ⟨b1, b2, -⟩ := layer_shapes cfg hL _ w hw
    simp only [Spec.stackOf, Var.mk.injEq] at he
    obtain ⟨e1, e2, e3⟩ := he
    have f2 := congrArg (List.eraseIdx · ax) e2
    have f3 := congrArg (List.eraseIdx · ax) e3
    simp only [ins_erase ax _ w.shape (by omega), ins_erase ax _ w.axes (by omega), ins_erase ax _ s h1, ins_erase ax _ axes h2] at f2 f3
    have : w = ⟨a :: a :: rest, s, axes⟩ := by
      cases w
      simp only at e1 f2 f3
      rw [e1, f2, f3]
    rw [this] at hw
    exact ((mem_layer cfg hL a a rest s axes a).1 hw).2
  · intro hw
    have hw' := (mem_layer cfg hL a a rest s axes a).2 ⟨rfl, hw⟩
    obtain ⟨b1, b2, -⟩ := layer_shapes cfg hL _ _ hw'
    dsimp only at b1 b2
    exact ⟨by omega, by omega, _, hw', rfl⟩

/-- **C116.** Layer `i` of a tower has exactly the parameters of the stacked tower, without the dimension of the layers. -/
theorem C116_layers (ax : Nat) (hax : ax ≤ 1) (name : String) (count : Nat)
    (hname : name = "encoder" ∧ count = cfg.numEnc ∨ name = "decoder" ∧ count = cfg.numDec) (i : Nat) (rest : List Name) (shape : List Nat) (axes : List Name) :
    (⟨name.toList :: layerName i :: rest, shape, axes⟩ ∈ Spec.separate cfg.toConfig ↔
      i < count ∧ ax ≤ shape.length ∧ ax ≤ axes.length ∧
        ⟨name.toList :: name.toList :: rest, ins ax count shape, ins ax "layers".toList axes⟩ ∈ Spec.stacked cfg.toConfig ax) := by
  have hH : ∀ v ∈ Spec.head cfg.toConfig, v.path = ["decoder".toList, "logits_dense".toList, "kernel".toList] := by
    intro v hv
    unfold Spec.head at hv
    split_ifs at hv
    · cases hv
    · rw [List.mem_singleton.1 hv]; rfl
  have hl : ∀ i, layerName i = 'l' :: 'a' :: (layerName i).drop 2 := fun i => rfl
  /- Which part of the list a path belongs to. -/
  have hplain : ∀ (c : Name), (c = name.toList ∨ ∃ i, c = layerName i) → ∀ (s : List Nat) (a : List Name),
      (⟨name.toList :: c :: rest, s, a⟩ : Var) ≠ Spec.embedding cfg.toConfig ∧ (⟨name.toList :: c :: rest, s, a⟩ : Var) ≠ Spec.encNorm cfg.toConfig ∧
      (⟨name.toList :: c :: rest, s, a⟩ : Var) ≠ Spec.decNorm cfg.toConfig ∧ (⟨name.toList :: c :: rest, s, a⟩ : Var) ∉ Spec.head cfg.toConfig := by
    intro c hc s a
    have k1 : c ≠ "encoder_norm".toList ∧ c ≠ "decoder_norm".toList ∧ c ≠ "logits_dense".toList := by
      rcases hc with rfl | ⟨i, rfl⟩
      · rcases hname with ⟨rfl, -⟩ | ⟨rfl, -⟩ <;> decide
      · refine ⟨(layerName_ne (by decide)).symm, (layerName_ne (by decide)).symm, ?_⟩
        rw [hl i]
        intro h
        exact absurd (List.cons.inj (List.cons.inj h).2).1 (by decide)
    refine ⟨fun h => ?_, fun h => ?_, fun h => ?_, fun h => ?_⟩
    · have := (List.cons.inj (congrArg Var.path h)).1
      rcases hname with ⟨rfl, -⟩ | ⟨rfl, -⟩ <;> exact absurd this (by decide)
    · exact k1.1 (List.cons.inj (List.cons.inj (congrArg Var.path h)).2).1
    · exact k1.2.1 (List.cons.inj (List.cons.inj (congrArg Var.path h)).2).1
    · exact k1.2.2 (List.cons.inj (List.cons.inj (hH _ h)).2).1
  have hother : ∀ (L : List Name → List Var) (o : Name), (L = Spec.encLayer cfg.toConfig ∨ L = Spec.decLayer cfg.toConfig) → name.toList ≠ o →
      ∀ c c' s a, (⟨name.toList :: c :: rest, s, a⟩ : Var) ∉ L [o, c'] := by
    intro L o hL ho c c' s a hv
    obtain ⟨r, hr⟩ := under_layer cfg hL o c' _ hv
    exact ho (List.cons.inj hr).1
  have hother' : ∀ (L : List Name → List Var) (o : Name), (L = Spec.encLayer cfg.toConfig ∨ L = Spec.decLayer cfg.toConfig) → name.toList ≠ o →
      ∀ c c' s a n, (⟨name.toList :: c :: rest, s, a⟩ : Var) ∉ (L [o, c']).map (Spec.stackOf ax n) := by
    intro L o hL ho c c' s a n hv
    obtain ⟨w, hw, he⟩ := List.mem_map.1 hv
    obtain ⟨r, hr⟩ := under_layer cfg hL o c' _ hw
    have : w.path = name.toList :: c :: rest := congrArg Var.path he
    rw [hr] at this
    exact ho (List.cons.inj this).1.symm
  have hp1 := hplain (layerName i) (.inr ⟨i, rfl⟩) shape axes
  have hp2 := hplain name.toList (.inl rfl) (ins ax count shape) (ins ax "layers".toList axes)
  rcases hname with ⟨rfl, rfl⟩ | ⟨rfl, rfl⟩
  · have o1 := hother (Spec.decLayer cfg.toConfig) "decoder".toList (.inr rfl) (by decide)
    have o2 := hother' (Spec.decLayer cfg.toConfig) "decoder".toList (.inr rfl) (by decide)
    simp only [Spec.separate, Spec.stacked, List.mem_append, List.mem_singleton, hp1, hp2, o1, o2, false_or, or_false, List.mem_flatMap, and_false,
      exists_false, mem_stacked cfg (L := Spec.encLayer cfg.toConfig) (.inl rfl) "encoder".toList rest shape axes ax cfg.numEnc hax,
      mem_layer cfg (L := Spec.encLayer cfg.toConfig) (.inl rfl), List.mem_range]
    exact ⟨fun ⟨j, h1, h2, h3⟩ => ⟨layerName_inj h2 ▸ h1, h3⟩, fun ⟨h1, h3⟩ => ⟨i, h1, rfl, h3⟩⟩
  · have o1 := hother (Spec.encLayer cfg.toConfig) "encoder".toList (.inl rfl) (by decide)
    have o2 := hother' (Spec.encLayer cfg.toConfig) "encoder".toList (.inl rfl) (by decide)
    simp only [Spec.separate, Spec.stacked, List.mem_append, List.mem_singleton, hp1, hp2, o1, o2, false_or, or_false, List.mem_flatMap, and_false,
      exists_false, mem_stacked cfg (L := Spec.decLayer cfg.toConfig) (.inr rfl) "decoder".toList rest shape axes ax cfg.numDec hax,
      mem_layer cfg (L := Spec.decLayer cfg.toConfig) (.inr rfl), List.mem_range]
    exact ⟨fun ⟨j, h1, h2, h3⟩ => ⟨layerName_inj h2 ▸ h1, h3⟩, fun ⟨h1, h3⟩ => ⟨i, h1, rfl, h3⟩⟩

/-- **C116.** The other parameters are the same. -/
theorem C116_others (ax : Nat) (v : Var) (h : ∀ name : String, name = "encoder" ∨ name = "decoder" →
      (∀ i rest, v.path ≠ name.toList :: layerName i :: rest) ∧ (∀ rest, v.path ≠ name.toList :: name.toList :: rest)) :
    v ∈ Spec.separate cfg.toConfig ↔ v ∈ Spec.stacked cfg.toConfig ax := by
  have hE : ∀ (L : List Name → List Var) (name : String), (name = "encoder" ∨ name = "decoder") →
      (L = Spec.encLayer cfg.toConfig ∨ L = Spec.decLayer cfg.toConfig) → (∀ i, v ∉ L [name.toList, layerName i]) ∧
      ∀ n, v ∉ (L [name.toList, name.toList]).map (Spec.stackOf ax n) := by
    intro L name hn hL
    refine ⟨fun i hv => ?_, fun n hv => ?_⟩
    · obtain ⟨r, hr⟩ := under_layer cfg hL name.toList (layerName i) v hv
      exact (h name hn).1 i r hr
    · obtain ⟨w, hw, rfl⟩ := List.mem_map.1 hv
      obtain ⟨r, hr⟩ := under_layer cfg hL name.toList name.toList w hw
      exact (h name hn).2 r hr
  have h1 := hE (Spec.encLayer cfg.toConfig) "encoder" (.inl rfl) (.inl rfl)
  have h2 := hE (Spec.decLayer cfg.toConfig) "decoder" (.inr rfl) (.inr rfl)
  simp only [Spec.separate, Spec.stacked, List.mem_append, List.mem_flatMap, h1.1, h1.2, h2.1, h2.2, and_false, exists_false, or_false]

open Verif.AdafactorStack (skip skip_ne skip_inj exists_skip ins_skip ins_at)
open Verif.AxisRules (Rule free logicalToMesh baseRules replicatedRules)

theorem ins_all {α : Type} (ax : Nat) (k : α) (l : List α) (f : α → Bool) : (ins ax k l).all f = (f k && l.all f) := by
  induction ax generalizing l with
  | zero => simp [ins]
  | succ ax ih =>
    cases l with
    | nil => simp [ins]
    | cons x l => simp only [ins, List.all_cons, ih]; cases f x <;> cases f k <;> simp

theorem ins_map {α β : Type} (ax : Nat) (k : α) (l : List α) (f : α → β) : (ins ax k l).map f = ins ax (f k) (l.map f) := by
  induction ax generalizing l with
  | zero => simp [ins]
  | succ ax ih =>
    cases l with
    | nil => simp [ins]
    | cons x l => simp only [ins, List.map_cons, ih]

theorem ins_set {α : Type} (ax : Nat) (k x : α) (l : List α) (h : ax ≤ l.length) (j : Nat) : (ins ax k l).set (skip ax j) x = ins ax k (l.set j x) := by
  induction ax generalizing l j with
  | zero => simp [ins, skip]
  | succ ax ih =>
    cases l with
    | nil => simp at h
    | cons y l =>
      cases j with
      | zero => simp [ins, skip]
      | succ j => simp only [ins, AdafactorStack.skip_succ_succ, List.set_cons_succ, ih l (by simpa using h)]

theorem ins_set_at {α : Type} (ax : Nat) (k x : α) (l : List α) (h : ax ≤ l.length) : (ins ax k l).set ax x = ins ax x l := by
  induction ax generalizing l with
  | zero => simp [ins]
  | succ ax ih =>
    cases l with
    | nil => simp at h
    | cons y l => simp only [ins, List.set_cons_succ, ih l (by simpa using h)]

theorem ins_replicate {α : Type} (ax : Nat) (x : α) (n : Nat) : ins ax x (List.replicate n x) = List.replicate (n + 1) x := by
  induction ax generalizing n with
  | zero => rfl
  | succ ax ih =>
    cases n with
    | zero => rfl
    | succ n => rw [List.replicate_succ, ins, ih]; rfl

theorem ins_find {α : Type} (p : α → Bool) (ax : Nat) (k : α) (l : List α) (h : ax ≤ l.length) (hk : p k = false) :
    (ins ax k l).findIdx? p = (l.findIdx? p).map (skip ax) := by
  induction ax generalizing l with
  | zero =>
    simp only [ins, List.findIdx?_cons, hk, Bool.false_eq_true, if_false]
    rfl
  | succ ax ih =>
    cases l with
    | nil => simp at h
    | cons y l =>
      simp only [ins, List.findIdx?_cons, ih l (by simpa using h)]
      cases p y with
      | true => simp [skip]
      | false =>
        simp only [Bool.false_eq_true, if_false, Option.map_map]
        congr 1
        funext j
        simp only [Function.comp, AdafactorStack.skip_succ_succ]

theorem ins_find_at {α : Type} (p : α → Bool) (ax : Nat) (k : α) (l : List α) (h : ax ≤ l.length) (hk : p k = true) (hl : ∀ x ∈ l, p x = false) :
    (ins ax k l).findIdx? p = some ax := by
  induction ax generalizing l with
  | zero => simp [ins, List.findIdx?_cons, hk]
  | succ ax ih =>
    cases l with
    | nil => simp at h
    | cons y l =>
      simp only [ins, List.findIdx?_cons, ih l (by simpa using h) fun x hx => hl x (by simp [hx]), hl y (by simp)]
      simp

/-- The name of the layers' axis does not influence the other dimensions as long as it is not assigned to a mesh axis. -/
theorem step_ins (names : List Name) (hn : "layers".toList ∉ names) (ax : Nat) (hax : ax ≤ names.length) (rule : Rule) (hr : rule.1 ≠ "layers".toList)
    (r : Option AxisRules.Axes) (hr0 : r = none ∨ r = some none) (res : List (Option AxisRules.Axes)) (hlen : res.length = names.length) :
    AxisRules.step ((ins ax "layers".toList names).map some) (ins ax r res) rule = ins ax r (AxisRules.step (names.map some) res rule) := by
  have hf : ((ins ax "layers".toList names).map some).findIdx? (· == some rule.1) = ((names.map some).findIdx? (· == some rule.1)).map (skip ax) := by
    rw [ins_map, ins_find _ ax _ _ (by simpa using hax)]
    simpa using fun h => hr h.symm
  have hfree : free rule.2 (ins ax r res) = free rule.2 res := by
    unfold free
    rw [ins_all]
    rcases hr0 with rfl | rfl <;> rfl
  unfold AxisRules.step
  rw [hf]
  rcases (names.map some).findIdx? (· == some rule.1) with - | pos
  · rfl
  · simp only [Option.map_some, hfree, ins_skip ax r res (by omega)]
    split_ifs
    · exact ins_set ax r _ res (by omega) pos
    · rfl

theorem step_layers (names : List Name) (hn : "layers".toList ∉ names) (ax : Nat) (hax : ax ≤ names.length) (rule : Rule) (hr : rule.1 = "layers".toList)
    (res : List (Option AxisRules.Axes)) (hlen : res.length = names.length) (r : Option AxisRules.Axes) (h : r = some none ∨ rule.2 = none) :
    AxisRules.step ((ins ax "layers".toList names).map some) (ins ax r res) rule =
      ins ax (if r = none then some rule.2 else r) (AxisRules.step (names.map some) res rule) := by
  have hf : ((ins ax "layers".toList names).map some).findIdx? (· == some rule.1) = some ax := by
    rw [ins_map, hr]
    refine ins_find_at _ ax _ _ (by simpa using hax) (by simp) ?_
    intro x hx
    obtain ⟨y, hy, rfl⟩ := List.mem_map.1 hx
    simp only [beq_eq_false_iff_ne, ne_eq, Option.some.injEq]
    rintro rfl
    exact hn hy
  have hf0 : (names.map some).findIdx? (· == some rule.1) = none := by
    rw [List.findIdx?_eq_none_iff]
    intro x hx
    obtain ⟨y, hy, rfl⟩ := List.mem_map.1 hx
    simp only [beq_eq_false_iff_ne, ne_eq, Option.some.injEq, hr]
    rintro rfl
    exact hn hy
  unfold AxisRules.step
  rw [hf, hf0]
  simp only [ins_at ax r res (by omega)]
  rcases h with rfl | h
  · simp
  · have hfree : ∀ l, free rule.2 l = true := by
      intro l
      unfold free
      rw [List.all_eq_true, h]
      intro x _
      cases x with
      | none => rfl
      | some a => cases a <;> simp
    rcases r with - | r
    · simp only [hfree, Bool.true_and, beq_self_eq_true, if_true]
      exact ins_set_at ax _ _ res (by omega)
    · simp

theorem step_length (names : List (Option Name)) (res : List (Option AxisRules.Axes)) (rule : Rule) : (AxisRules.step names res rule).length = res.length := by
  unfold AxisRules.step
  split
  · rfl
  · split_ifs <;> simp

theorem fold_ins (names : List Name) (hn : "layers".toList ∉ names) (ax : Nat) (hax : ax ≤ names.length) (rules : List Rule)
    (r : Option AxisRules.Axes) (hr0 : r = none ∧ (∀ x ∈ rules, x.1 ≠ "layers".toList) ∨ r = some none)
    (res : List (Option AxisRules.Axes)) (hlen : res.length = names.length) :
    (rules.foldl (AxisRules.step (names.map some)) res).length = names.length ∧
      rules.foldl (AxisRules.step ((ins ax "layers".toList names).map some)) (ins ax r res) =
        ins ax r (rules.foldl (AxisRules.step (names.map some)) res) := by
  induction rules generalizing res with
  | nil => exact ⟨hlen, rfl⟩
  | cons x rules ih =>
    have hlen' : (AxisRules.step (names.map some) res x).length = names.length := by rw [step_length, hlen]
    simp only [List.foldl_cons]
    have hs : AxisRules.step ((ins ax "layers".toList names).map some) (ins ax r res) x = ins ax r (AxisRules.step (names.map some) res x) := by
      by_cases hx : x.1 = "layers".toList
      · rcases hr0 with ⟨rfl, h⟩ | rfl
        · exact absurd hx (h x (by simp))
        · exact step_layers names hn ax hax x hx res hlen (some none) (.inl rfl)
      · exact step_ins names hn ax hax x hx r (hr0.imp And.left id) res hlen
    rw [hs]
    exact ih (hr0.imp (fun h => ⟨h.1, fun y hy => h.2 y (by simp [hy])⟩) id) _ hlen'

theorem noDuplicates_map (l : List Name) : AxisRules.noDuplicates (l.map some) = true ↔ l.Nodup := by
  induction l with
  | nil => simp [AxisRules.noDuplicates]
  | cons x l ih => simp [AxisRules.noDuplicates, ih]

theorem mesh_ins (names : List Name) (hnd : names.Nodup) (hn : "layers".toList ∉ names) (ax : Nat) (hax : ax ≤ names.length) (pre post : List Rule)
    (hpre : ∀ x ∈ pre, x.1 ≠ "layers".toList) : ∃ m, m.length = names.length ∧
      logicalToMesh (names.map some) (pre ++ ("layers".toList, none) :: post) = .ok m ∧
      logicalToMesh ((ins ax "layers".toList names).map some) (pre ++ ("layers".toList, none) :: post) = .ok (ins ax none m) := by
  have h0 : AxisRules.noDuplicates (names.map some) = true := (noDuplicates_map _).2 hnd
  have h0' : AxisRules.noDuplicates ((ins ax "layers".toList names).map some) = true := (noDuplicates_map _).2 (ins_nodup hnd hn ax)
  obtain ⟨l1, e1⟩ := fold_ins names hn ax hax pre none (.inl ⟨rfl, hpre⟩) (List.replicate names.length none) (by simp)
  have e2 := step_layers names hn ax hax ("layers".toList, none) rfl _ l1 none (.inr rfl)
  obtain ⟨l3, e3⟩ := fold_ins names hn ax hax post (some none) (.inr rfl) (AxisRules.step (names.map some)
    (pre.foldl (AxisRules.step (names.map some)) (List.replicate names.length none)) ("layers".toList, none)) (by rw [step_length, l1])
  refine ⟨_, ?_, by unfold logicalToMesh; rw [if_pos h0], ?_⟩
  · rw [List.length_map, List.foldl_append, List.foldl_cons, List.length_map]
    exact l3
  · unfold logicalToMesh
    rw [if_pos h0', List.length_map, ins_length, ← ins_replicate ax, List.foldl_append, List.foldl_cons, e1, e2, if_pos rfl, e3, ins_map, List.length_map,
      List.foldl_append, List.foldl_cons]
    rfl

/-- **C116.** With the standard rules the dimension of the layers is not split and the other dimensions of a stacked parameter are placed like those of a
separate layer, whatever additional rules there are. -/
theorem C116_partition (act par : Nat) (additional rules : List Rule) (hr : AxisRules.standardRules act par additional = .ok rules) (ax : Nat) (hax : ax ≤ 1)
    (name : Name) (L : List Name → List Var) (hL : L = Spec.encLayer cfg.toConfig ∨ L = Spec.decLayer cfg.toConfig) (n : Nat) (v : Var)
    (hv : v ∈ L [name, name]) :
    ∃ m, m.length = v.shape.length ∧ logicalToMesh (v.axes.map some) rules = .ok m ∧
      logicalToMesh ((Spec.stackOf ax n v).axes.map some) rules = .ok (ins ax none m) := by
  obtain ⟨h1, h2, h3, h4⟩ := layer_shapes cfg hL _ v hv
  have hb : ∃ base, baseRules act par = some base ∧ (∀ x ∈ base, x.1 ≠ "layers".toList) ∧ rules = base ++ replicatedRules ++ additional := by
    unfold AxisRules.standardRules at hr
    rcases hb : baseRules act par with - | base
    · rw [hb] at hr; cases hr
    · rw [hb] at hr
      refine ⟨base, rfl, ?_, (Except.ok.inj hr).symm⟩
      unfold baseRules at hb
      split at hb
      · cases hb; decide
      · cases hb; decide
      · cases hb; decide
      · cases hb; decide
      · cases hb
  obtain ⟨base, -, hb, rfl⟩ := hb
  have e : base ++ replicatedRules ++ additional = (base ++ [("relpos_buckets".toList, none), ("abspos_buckets".toList, none), ("length".toList, none)]) ++
      ("layers".toList, none) :: ([("stack".toList, none), ("mlp_activations".toList, none)] ++ additional) := by
    simp [replicatedRules]
  rw [e, ← h2]
  refine mesh_ins v.axes h3 h4 ax (by omega) _ _ ?_
  intro x hx
  rcases List.mem_append.1 hx with hx | hx
  · exact hb x hx
  · exact (by decide : ∀ x ∈ [("relpos_buckets".toList, (none : AxisRules.Axes)), ("abspos_buckets".toList, none), ("length".toList, none)],
      x.1 ≠ "layers".toList) x hx

/-- The axes of the parameters of a layer. -/
theorem layer_axes {L : List Name → List Var} (hL : L = Spec.encLayer cfg.toConfig ∨ L = Spec.decLayer cfg.toConfig) (scope : List Name) :
    ∀ v ∈ L scope, v.axes ∈ [["heads".toList, "relpos_buckets".toList], ["embed".toList], ["embed".toList, "heads".toList, "kv".toList],
      ["heads".toList, "kv".toList, "embed".toList], ["embed".toList, "mlp".toList], ["mlp".toList, "embed".toList]] := by
  have ht : ∀ name, ∀ v ∈ Spec.attention cfg.toConfig scope name,
      v.axes = ["embed".toList, "heads".toList, "kv".toList] ∨ v.axes = ["heads".toList, "kv".toList, "embed".toList] := by
    intro name v hv
    simp only [Spec.attention, List.mem_cons, List.not_mem_nil, or_false] at hv
    rcases hv with rfl | rfl | rfl | rfl
    · exact .inl rfl
    · exact .inl rfl
    · exact .inl rfl
    · exact .inr rfl
  have hm : ∀ v ∈ Spec.mlp cfg.toConfig scope, v.axes = ["embed".toList, "mlp".toList] ∨ v.axes = ["mlp".toList, "embed".toList] := by
    intro v hv
    simp only [Spec.mlp, List.mem_append, List.mem_map, List.mem_singleton] at hv
    rcases hv with ⟨i, -, rfl⟩ | rfl
    · exact .inl rfl
    · exact .inr rfl
  have hn : ∀ name, (Spec.norm cfg.toConfig scope name).axes = ["embed".toList] := fun name => rfl
  have hr : (Spec.relpos cfg.toConfig scope).axes = ["heads".toList, "relpos_buckets".toList] := rfl
  simp only [List.mem_cons, List.not_mem_nil, or_false]
  rcases hL with rfl | rfl <;> intro v hv
  · simp only [Spec.encLayer, List.mem_append, List.mem_cons, List.not_mem_nil, or_false] at hv
    rcases hv with ((((rfl | rfl) | h) | rfl) | h)
    · exact .inl hr
    · exact .inr (.inl (hn _))
    · rcases ht _ v h with h | h
      · exact .inr (.inr (.inl h))
      · exact .inr (.inr (.inr (.inl h)))
    · exact .inr (.inl (hn _))
    · exact .inr (.inr (.inr (.inr (hm v h))))
  · simp only [Spec.decLayer, List.mem_append, List.mem_cons, List.not_mem_nil, or_false] at hv
    rcases hv with ((((((rfl | rfl) | h) | rfl) | h) | rfl) | h)
    · exact .inl hr
    · exact .inr (.inl (hn _))
    · rcases ht _ v h with h | h
      · exact .inr (.inr (.inl h))
      · exact .inr (.inr (.inr (.inl h)))
    · exact .inr (.inl (hn _))
    · rcases ht _ v h with h | h
      · exact .inr (.inr (.inl h))
      · exact .inr (.inr (.inr (.inl h)))
    · exact .inr (.inl (hn _))
    · exact .inr (.inr (.inr (.inr (hm v h))))

open Verif.AdafactorAxes (applyRulesTo) in
/-- **C116.** Adafactor treats the dimension of the layers of a stacked parameter as a batch dimension and the other dimensions like those of a separate
layer. -/
theorem C116_factored (lower : Name → Name) (ax : Nat) (hax : ax ≤ 1) (name : Name) (L : List Name → List Var)
    (hL : L = Spec.encLayer cfg.toConfig ∨ L = Spec.decLayer cfg.toConfig) (n : Nat) (v : Var) (hv : v ∈ L [name, name]) :
    ∃ r, r.length = v.shape.length ∧ applyRulesTo lower AdafactorAxes.standardRules (v.axes.map some) = .ok r ∧
      applyRulesTo lower AdafactorAxes.standardRules ((Spec.stackOf ax n v).axes.map some) = .ok (ins ax .batch r) := by
  obtain ⟨-, h2, -⟩ := layer_shapes cfg hL _ v hv
  have hv := layer_axes cfg hL _ v hv
  rw [← h2]
  have hax : ax = 0 ∨ ax = 1 := by omega
  simp only [List.mem_cons, List.not_mem_nil, or_false] at hv
  simp only [Spec.stackOf]
  rcases hv with h | h | h | h | h | h <;> rw [h] <;> rcases hax with rfl | rfl
  · exact ⟨[.none, .none], rfl, rfl, rfl⟩
  · exact ⟨[.none, .none], rfl, rfl, rfl⟩
  · exact ⟨[.none], rfl, rfl, rfl⟩
  · exact ⟨[.none], rfl, rfl, rfl⟩
  · exact ⟨[.row, .column, .column], rfl, rfl, rfl⟩
  · exact ⟨[.row, .column, .column], rfl, rfl, rfl⟩
  · exact ⟨[.column, .column, .row], rfl, rfl, rfl⟩
  · exact ⟨[.column, .column, .row], rfl, rfl, rfl⟩
  · exact ⟨[.row, .column], rfl, rfl, rfl⟩
  · exact ⟨[.row, .column], rfl, rfl, rfl⟩
  · exact ⟨[.column, .row], rfl, rfl, rfl⟩
  · exact ⟨[.column, .row], rfl, rfl, rfl⟩

theorem ins_prod (ax n : Nat) (s : List Nat) : (ins ax n s).prod = n * s.prod := by
  induction ax generalizing s with
  | zero => simp [ins]
  | succ ax ih =>
    cases s with
    | nil => simp [ins]
    | cons x s => simp only [ins, List.prod_cons, ih]; ring

/-- **C116.** Stacking the layers does not change the number of trained scalars. -/
theorem C116_size (ax : Nat) : ((Spec.stacked cfg.toConfig ax).map fun v => v.shape.prod).sum = ((Spec.separate cfg.toConfig).map fun v => v.shape.prod).sum := by
  have h1 : ∀ (L : List Name → List Var), (L = Spec.encLayer cfg.toConfig ∨ L = Spec.decLayer cfg.toConfig) → ∀ (name : Name) (n : Nat),
      (((L [name, name]).map (Spec.stackOf ax n)).map fun v => v.shape.prod).sum =
        (((List.range n).flatMap fun i => L [name, layerName i]).map fun v => v.shape.prod).sum := by
    intro L hL name n
    have e : ∀ scope, ((L scope).map fun v => v.shape.prod).sum = ((L []).map fun v => v.shape.prod).sum := by
      intro scope
      rw [layer_below cfg hL scope, List.map_map]
      rfl
    have e1 : (((L [name, name]).map (Spec.stackOf ax n)).map fun v => v.shape.prod).sum = n * ((L []).map fun v => v.shape.prod).sum := by
      rw [← e [name, name], ← List.sum_map_mul_left, List.map_map]
      congr 1
      refine List.map_congr_left fun v _ => ?_
      exact ins_prod ax n v.shape
    rw [e1]
    induction n with
    | zero => simp
    | succ n ih =>
      rw [List.range_succ, List.flatMap_append, List.map_append, List.sum_append, ← ih ?_, List.flatMap_singleton, e [name, layerName n]]
      · ring
      · rw [← e [name, name], ← List.sum_map_mul_left, List.map_map]
        congr 1
        refine List.map_congr_left fun v _ => ?_
        exact ins_prod ax n v.shape
  simp only [Spec.stacked, Spec.separate, List.map_append, List.sum_append, h1 _ (.inl rfl), h1 _ (.inr rfl)]

/-! ### Examples -/

/-- Two layers in the encoder, one in the decoder, scanned along the second dimension. -/
def small (scanned : Bool) : Config :=
  { vocabSize := 100, embDim := 8, numHeads := 2, headDim := 4, numEnc := 2, numDec := 1, mlpDim := 16, numActs := 2, viaEmbedding := false,
    scanLayers := scanned, paramScanAxis := 1 }

example : init (small true) [3, 5] [3, 7] false true = some (Spec.stacked (small true).toConfig 1) :=
  C116_stacked (small true) rfl (by decide) (by decide) 3 7 5 false true (by decide)

example : (init (small false) [3, 5] [3, 7] true true).map List.length = some 39 := by decide +kernel

example : (init (small true) [3, 5] [3, 7] true true).map List.length = some 29 := by decide +kernel

example : (⟨["encoder".toList, "layers_1".toList, "mlp".toList, "wo".toList, "kernel".toList], [16, 8], ["mlp".toList, "embed".toList]⟩ : Var) ∈
    Spec.separate (small false).toConfig := by decide +kernel

example : (⟨["encoder".toList, "encoder".toList, "mlp".toList, "wo".toList, "kernel".toList], [16, 2, 8], ["mlp".toList, "layers".toList, "embed".toList]⟩ : Var) ∈
    Spec.stacked (small true).toConfig 1 := by decide +kernel

example : init { small true with paramScanAxis := 2 } [3, 5] [3, 7] false false = none :=
  C116_axis { small true with paramScanAxis := 2 } rfl (by decide) (by decide) _ _ _ _

example : ∃ rules, AxisRules.standardRules 2 2 [("layers".toList, some ["data".toList])] = .ok rules := ⟨_, rfl⟩

end Verif.InitScalable
