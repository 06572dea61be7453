import Verif.Spec.InitScalable
import Verif.Lemmas.Importer
namespace Verif.InitScalable
open Verif.InitT5 (Name Var param wiName layerName layerNorm embed relpos add loop attend)
open Verif.Ckpt (dec)

/-- No variable below a scope. -/
def Fresh (scope : List Name) (vars : List Var) : Prop := ∀ v ∈ vars, ¬ scope <+: v.path

/-- All variables below the component `c` of a scope. -/
def Under (scope : List Name) (c : Name) (vars : List Var) : Prop := ∀ v ∈ vars, ∃ rest, v.path = scope ++ c :: rest

theorem fresh_append {scope : List Name} {a b : List Var} : Fresh scope (a ++ b) ↔ Fresh scope a ∧ Fresh scope b := by
  simp only [Fresh, List.mem_append]
  exact ⟨fun h => ⟨fun v hv => h v (.inl hv), fun v hv => h v (.inr hv)⟩, fun h v hv => hv.elim (h.1 v) (h.2 v)⟩

theorem fresh_sub {scope : List Name} (c : Name) {vars : List Var} (h : Fresh scope vars) : Fresh (scope ++ [c]) vars :=
  fun v hv hp => h v hv ((List.prefix_append scope [c]).trans hp)

theorem fresh_under {scope : List Name} {c c' : Name} {vars : List Var} (h : Under scope c' vars) (hc : c ≠ c') : Fresh (scope ++ [c]) vars := by
  intro v hv hp
  obtain ⟨rest, hr⟩ := h v hv
  rw [hr, List.prefix_append_right_inj, List.cons_prefix_cons] at hp
  exact hc hp.1

theorem fresh_nil (scope : List Name) : Fresh scope [] := fun v hv => by cases hv

theorem under_append {scope : List Name} {c : Name} {a b : List Var} (h1 : Under scope c a) (h2 : Under scope c b) : Under scope c (a ++ b) := by
  intro v hv
  rcases List.mem_append.1 hv with h | h
  · exact h1 v h
  · exact h2 v h

theorem param_fresh {scope : List Name} {vars : List Var} (h : Fresh scope vars) (name : Name) (shape : List Nat) (axes : List Name) :
    param scope name shape axes vars = some (vars ++ [⟨scope ++ [name], shape, axes⟩]) := by
  unfold param
  have : vars.find? (fun v => v.path = scope ++ [name]) = none := by
    rw [List.find?_eq_none]
    intro v hv he
    exact h v hv ((of_decide_eq_true he) ▸ List.prefix_append scope [name])
  rw [this]

theorem dense_last {scope : List Name} {vars : List Var} (h : Fresh scope vars) (f : List Nat) (axes : List Name) (B n d : Nat) :
    dense f [-1] axes scope [B, n, d] vars = some ([B, n] ++ f, vars ++ [⟨scope ++ ["kernel".toList], d :: f, axes⟩]) := by
  have hd : ([-1].map (InitT5.normAxis [B, n, d].length)).mapM (fun a => [B, n, d][a]?) = some [d] := rfl
  simp only [dense, hd, Option.bind_some, List.cons_append, List.nil_append, param_fresh h, Option.map_some]
  rfl

theorem dense_two {scope : List Name} {vars : List Var} (h : Fresh scope vars) (f : Nat) (axes : List Name) (B n a d : Nat) :
    dense [f] [-2, -1] axes scope [B, n, a, d] vars = some ([B, n, f], vars ++ [⟨scope ++ ["kernel".toList], [a, d, f], axes⟩]) := by
  have hd : ([-2, -1].map (InitT5.normAxis [B, n, a, d].length)).mapM (fun x => [B, n, a, d][x]?) = some [a, d] := rfl
  simp only [dense, hd, Option.bind_some, List.cons_append, List.nil_append, param_fresh h, Option.map_some]
  rfl

theorem layerNorm_fresh {scope : List Name} {vars : List Var} (h : Fresh scope vars) (B n d : Nat) :
    layerNorm scope [B, n, d] vars = some ([B, n, d], vars ++ [⟨scope ++ ["scale".toList], [d], ["embed".toList]⟩]) := by
  have hl : [B, n, d].getLast? = some d := rfl
  simp only [layerNorm, hl, Option.bind_some, param_fresh h, Option.map_some]

variable (cfg : Config)

theorem attention_fresh {scope : List Name} {name : String} {vars : List Var} (h : Fresh (scope ++ [name.toList]) vars) (B n m : Nat) :
    attention cfg (scope ++ [name.toList]) [B, n, cfg.embDim] [B, m, cfg.embDim] vars =
      some ([B, n, cfg.embDim], vars ++ Spec.attention cfg.toConfig scope name) := by
  have u : ∀ (c : Name) (s : List Nat) (a : List Name), Under (scope ++ [name.toList]) c [⟨scope ++ [name.toList] ++ [c] ++ ["kernel".toList], s, a⟩] := by
    intro c s a v hv
    rw [List.mem_singleton.1 hv]
    exact ⟨["kernel".toList], by simp⟩
  have e1 := dense_last (fresh_sub "query".toList h) [cfg.numHeads, cfg.headDim] ["embed".toList, "heads".toList, "kv".toList] B n cfg.embDim
  have f2 := fresh_append.2 ⟨fresh_sub "key".toList h, fresh_under (u "query".toList [cfg.embDim, cfg.numHeads, cfg.headDim]
    ["embed".toList, "heads".toList, "kv".toList]) (c := "key".toList) (by decide)⟩
  have e2 := dense_last f2 [cfg.numHeads, cfg.headDim] ["embed".toList, "heads".toList, "kv".toList] B m cfg.embDim
  have f3 := fresh_append.2 ⟨fresh_append.2 ⟨fresh_sub "value".toList h, fresh_under (u "query".toList [cfg.embDim, cfg.numHeads, cfg.headDim]
    ["embed".toList, "heads".toList, "kv".toList]) (c := "value".toList) (by decide)⟩, fresh_under (u "key".toList [cfg.embDim, cfg.numHeads, cfg.headDim]
    ["embed".toList, "heads".toList, "kv".toList]) (c := "value".toList) (by decide)⟩
  have e3 := dense_last f3 [cfg.numHeads, cfg.headDim] ["embed".toList, "heads".toList, "kv".toList] B m cfg.embDim
  have f4 := fresh_append.2 ⟨fresh_append.2 ⟨fresh_append.2 ⟨fresh_sub "out".toList h, fresh_under (u "query".toList
    [cfg.embDim, cfg.numHeads, cfg.headDim] ["embed".toList, "heads".toList, "kv".toList]) (c := "out".toList) (by decide)⟩,
    fresh_under (u "key".toList [cfg.embDim, cfg.numHeads, cfg.headDim] ["embed".toList, "heads".toList, "kv".toList]) (c := "out".toList) (by decide)⟩,
    fresh_under (u "value".toList [cfg.embDim, cfg.numHeads, cfg.headDim] ["embed".toList, "heads".toList, "kv".toList]) (c := "out".toList) (by decide)⟩
  have e4 := dense_two f4 cfg.embDim ["heads".toList, "kv".toList, "embed".toList] B n cfg.numHeads cfg.headDim
  have hl : [B, n, cfg.embDim].getLast? = some cfg.embDim := rfl
  simp only [List.cons_append, List.nil_append] at e1 e2 e3 e4
  simp only [attention, e1, Option.bind_some, e2, e3, attend, and_self, if_true, hl, e4]
  simp [Spec.attention, Spec.at']

theorem wiName_inj {N i j : Nat} (hi : i < N) (hj : j < N) (h : wiName N i = wiName N j) : i = j := by
  unfold wiName at h
  split_ifs at h with h1
  · omega
  · exact Importer.dec_inj (List.append_cancel_left h)

theorem wiName_wo (N i : Nat) : "wo".toList ≠ wiName N i := by
  unfold wiName
  split_ifs
  · decide
  · intro h
    have := congrArg (fun l => l[1]?) h
    simp at this

/-- The variables of the first kernels of an MLP block. -/
def wis (scope : List Name) (l : List Nat) : List Var :=
  l.map fun i => ⟨scope ++ [wiName cfg.numActs i] ++ ["kernel".toList], [cfg.embDim, cfg.mlpDim], ["embed".toList, "mlp".toList]⟩

theorem activations_fresh {scope : List Name} (B n : Nat) (l : List Nat) : ∀ (vars : List Var), l.Nodup → (∀ i ∈ l, i < cfg.numActs) →
    (∀ i ∈ l, Fresh (scope ++ [wiName cfg.numActs i]) vars) → ∀ acc, (acc = none ∨ acc = some [B, n, cfg.mlpDim]) →
    activations cfg scope [B, n, cfg.embDim] l acc vars = some (if l = [] then acc else some [B, n, cfg.mlpDim], vars ++ wis cfg scope l) := by
  induction l with
  | nil => intro vars _ _ _ acc _; simp [activations, wis]
  | cons i l ih =>
    intro vars hn hb hf acc ha
    have e1 := dense_last (hf i (by simp)) [cfg.mlpDim] ["embed".toList, "mlp".toList] B n cfg.embDim
    simp only [List.cons_append, List.nil_append] at e1
    have key := ih (vars ++ [⟨scope ++ [wiName cfg.numActs i] ++ ["kernel".toList], [cfg.embDim, cfg.mlpDim], ["embed".toList, "mlp".toList]⟩])
      (List.nodup_cons.1 hn).2 (fun j hj => hb j (by simp [hj])) (fun j hj => fresh_append.2 ⟨hf j (by simp [hj]), by
        refine fresh_under (c' := wiName cfg.numActs i) ?_ ?_
        · intro v hv
          rw [List.mem_singleton.1 hv]
          exact ⟨["kernel".toList], by simp⟩
        · intro h
          have := wiName_inj (hb j (by simp [hj])) (hb i (by simp)) h
          exact (List.nodup_cons.1 hn).1 (this ▸ hj)⟩) (some [B, n, cfg.mlpDim]) (.inr rfl)
    have hif : (if l = [] then some [B, n, cfg.mlpDim] else some [B, n, cfg.mlpDim]) = some [B, n, cfg.mlpDim] := by split_ifs <;> rfl
    rw [hif] at key
    unfold activations
    rw [e1]
    rcases ha with rfl | rfl
    · simp only [Option.bind_some, key]
      simp [wis]
    · simp only [Option.bind_some, if_true, key]
      simp [wis]

theorem mlp_fresh {scope : List Name} {vars : List Var} (h : Fresh (scope ++ ["mlp".toList]) vars) (hN : 0 < cfg.numActs) (B n : Nat) :
    mlp cfg (scope ++ ["mlp".toList]) [B, n, cfg.embDim] vars = some ([B, n, cfg.embDim], vars ++ Spec.mlp cfg.toConfig scope) := by
  have e1 := activations_fresh cfg (scope := scope ++ ["mlp".toList]) B n (List.range cfg.numActs) vars List.nodup_range
    (fun i hi => List.mem_range.1 hi) (fun i _ => fresh_sub _ h) none (.inl rfl)
  rw [if_neg (by simp; omega)] at e1
  have hl : [B, n, cfg.embDim].getLast? = some cfg.embDim := rfl
  have e2 := dense_last (scope := scope ++ ["mlp".toList] ++ ["wo".toList]) (vars := vars ++ wis cfg (scope ++ ["mlp".toList]) (List.range cfg.numActs))
    (fresh_append.2 ⟨fresh_sub _ h, by
      intro v hv
      obtain ⟨i, -, rfl⟩ := List.mem_map.1 hv
      refine fresh_under (c' := wiName cfg.numActs i) (vars := [_]) ?_ (wiName_wo _ _) _ (List.mem_singleton.2 rfl)
      intro v hv
      rw [List.mem_singleton.1 hv]
      exact ⟨["kernel".toList], by simp⟩⟩) [cfg.embDim] ["mlp".toList, "embed".toList] B n cfg.mlpDim
  simp only [List.cons_append, List.nil_append] at e2
  simp only [mlp, e1, Option.bind_some, hl, e2]
  simp [Spec.mlp, wis, Spec.at']

theorem under_attention (scope : List Name) (name : String) : Under scope name.toList (Spec.attention cfg.toConfig scope name) := by
  intro v hv
  simp only [Spec.attention, List.mem_cons, List.not_mem_nil, or_false] at hv
  rcases hv with rfl | rfl | rfl | rfl <;> exact ⟨_, rfl⟩

theorem under_norm (scope : List Name) (name : String) : Under scope name.toList [Spec.norm cfg.toConfig scope name] := by
  intro v hv
  rw [List.mem_singleton.1 hv]
  exact ⟨_, rfl⟩

theorem under_relpos (scope : List Name) : Under scope "relpos_bias".toList [Spec.relpos cfg.toConfig scope] := by
  intro v hv
  rw [List.mem_singleton.1 hv]
  exact ⟨_, rfl⟩

theorem relpos_fresh {scope : List Name} {vars : List Var} (h : Fresh (scope ++ ["relpos_bias".toList]) vars) :
    relpos cfg.toConfig (scope ++ ["relpos_bias".toList]) vars = some (vars ++ [Spec.relpos cfg.toConfig scope]) := by
  simp only [relpos, param_fresh h]
  simp [Spec.relpos, Spec.at']

theorem norm_fresh {scope : List Name} {name : String} {vars : List Var} (h : Fresh (scope ++ [name.toList]) vars) (B n : Nat) :
    layerNorm (scope ++ [name.toList]) [B, n, cfg.embDim] vars = some ([B, n, cfg.embDim], vars ++ [Spec.norm cfg.toConfig scope name]) := by
  rw [layerNorm_fresh h]
  simp [Spec.norm, Spec.at']

theorem encLayer_fresh {scope : List Name} {vars : List Var} (h : Fresh scope vars) (hN : 0 < cfg.numActs) (B n : Nat) :
    encLayer cfg scope [B, n, cfg.embDim] vars = some ([B, n, cfg.embDim], vars ++ Spec.encLayer cfg.toConfig scope) := by
  have f0 := fun c => fresh_sub (c := c) h
  have r := fun (c : Name) (hc : c ≠ "relpos_bias".toList) => fresh_under (c := c) (under_relpos cfg scope) hc
  have a := fun (c : Name) (hc : c ≠ "pre_attention_layer_norm".toList) => fresh_under (c := c) (under_norm cfg scope "pre_attention_layer_norm") hc
  have t := fun (c : Name) (hc : c ≠ "attention".toList) => fresh_under (c := c) (under_attention cfg scope "attention") hc
  have b := fun (c : Name) (hc : c ≠ "pre_mlp_layer_norm".toList) => fresh_under (c := c) (under_norm cfg scope "pre_mlp_layer_norm") hc
  have e0 := relpos_fresh cfg (f0 _)
  have e1 := norm_fresh cfg (name := "pre_attention_layer_norm") (fresh_append.2 ⟨f0 _, r _ (by decide)⟩) B n
  have e2 := attention_fresh cfg (name := "attention") (fresh_append.2 ⟨fresh_append.2 ⟨f0 _, r _ (by decide)⟩, a _ (by decide)⟩) B n n
  have e3 := norm_fresh cfg (name := "pre_mlp_layer_norm")
    (fresh_append.2 ⟨fresh_append.2 ⟨fresh_append.2 ⟨f0 _, r _ (by decide)⟩, a _ (by decide)⟩, t _ (by decide)⟩) B n
  have e4 := mlp_fresh cfg (fresh_append.2 ⟨fresh_append.2 ⟨fresh_append.2 ⟨fresh_append.2 ⟨f0 _, r _ (by decide)⟩, a _ (by decide)⟩, t _ (by decide)⟩,
    b _ (by decide)⟩) hN B n
  simp only [encLayer, e0, Option.bind_some, List.length_cons, List.length_nil, Nat.zero_add, Nat.reduceAdd, ne_eq, not_true_eq_false, if_false, e1, e2, add, if_true,
    e3, e4, Option.map_some, Spec.encLayer]
  simp

theorem decLayer_fresh {scope : List Name} {vars : List Var} (h : Fresh scope vars) (hN : 0 < cfg.numActs) (B n m : Nat) :
    decLayer cfg [B, m, cfg.embDim] scope [B, n, cfg.embDim] vars = some ([B, n, cfg.embDim], vars ++ Spec.decLayer cfg.toConfig scope) := by
  have f0 := fun c => fresh_sub (c := c) h
  have r := fun (c : Name) (hc : c ≠ "relpos_bias".toList) => fresh_under (c := c) (under_relpos cfg scope) hc
  have a := fun (c : Name) (hc : c ≠ "pre_self_attention_layer_norm".toList) =>
    fresh_under (c := c) (under_norm cfg scope "pre_self_attention_layer_norm") hc
  have t := fun (c : Name) (hc : c ≠ "self_attention".toList) => fresh_under (c := c) (under_attention cfg scope "self_attention") hc
  have x := fun (c : Name) (hc : c ≠ "pre_cross_attention_layer_norm".toList) =>
    fresh_under (c := c) (under_norm cfg scope "pre_cross_attention_layer_norm") hc
  have y := fun (c : Name) (hc : c ≠ "encoder_decoder_attention".toList) => fresh_under (c := c) (under_attention cfg scope "encoder_decoder_attention") hc
  have b := fun (c : Name) (hc : c ≠ "pre_mlp_layer_norm".toList) => fresh_under (c := c) (under_norm cfg scope "pre_mlp_layer_norm") hc
  have e0 := relpos_fresh cfg (f0 _)
  have e1 := norm_fresh cfg (name := "pre_self_attention_layer_norm") (fresh_append.2 ⟨f0 _, r _ (by decide)⟩) B n
  have e2 := attention_fresh cfg (name := "self_attention") (fresh_append.2 ⟨fresh_append.2 ⟨f0 _, r _ (by decide)⟩, a _ (by decide)⟩) B n n
  have e3 := norm_fresh cfg (name := "pre_cross_attention_layer_norm")
    (fresh_append.2 ⟨fresh_append.2 ⟨fresh_append.2 ⟨f0 _, r _ (by decide)⟩, a _ (by decide)⟩, t _ (by decide)⟩) B n
  have e4 := attention_fresh cfg (name := "encoder_decoder_attention")
    (fresh_append.2 ⟨fresh_append.2 ⟨fresh_append.2 ⟨fresh_append.2 ⟨f0 _, r _ (by decide)⟩, a _ (by decide)⟩, t _ (by decide)⟩, x _ (by decide)⟩) B n m
  have e5 := norm_fresh cfg (name := "pre_mlp_layer_norm")
    (fresh_append.2 ⟨fresh_append.2 ⟨fresh_append.2 ⟨fresh_append.2 ⟨fresh_append.2 ⟨f0 _, r _ (by decide)⟩, a _ (by decide)⟩, t _ (by decide)⟩,
      x _ (by decide)⟩, y _ (by decide)⟩) B n
  have e6 := mlp_fresh cfg (fresh_append.2 ⟨fresh_append.2 ⟨fresh_append.2 ⟨fresh_append.2 ⟨fresh_append.2 ⟨fresh_append.2 ⟨f0 _, r _ (by decide)⟩,
    a _ (by decide)⟩, t _ (by decide)⟩, x _ (by decide)⟩, y _ (by decide)⟩, b _ (by decide)⟩) hN B n
  simp only [decLayer, e0, Option.bind_some, e1, e2, add, if_true, e3, e4, e5, e6, Option.map_some, Spec.decLayer]
  simp

end Verif.InitScalable
