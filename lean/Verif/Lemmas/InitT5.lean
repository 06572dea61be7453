import Verif.Spec.InitT5
import Verif.Lemmas.Importer
namespace Verif.InitT5
open Verif.InitT5.Spec Verif.Importer.Spec
open Verif.Ckpt (dec)

/-- The variable of a parameter. -/
def varOf (cfg : Config) (p : Param) : Var := ⟨pathOf p, shapeOf cfg p, axesOf p⟩

/-- Not the bias of a layer other than the first. -/
def Good : Param → Prop
  | .rel _ n => n = 0
  | _ => True

instance : DecidablePred Good := fun p => by unfold Good; split <;> infer_instance

theorem rel_ne (e : Bool) (q : Param) (hq : ∀ e' n, q ≠ .rel e' n) : [side e, "relpos_bias".toList, "rel_embedding".toList] ≠ q.path := by
  intro h
  have len := congrArg List.length h
  rw [Importer.path_length] at len
  cases q with
  | rel e' n => exact hq e' n rfl
  | emb e' => simp only [Param.path, List.cons.injEq, and_true] at h; exact absurd h.2.1 (by decide)
  | finalLn e' => simp only [Param.path, List.cons.injEq, and_true] at h; exact absurd h.2.2 (by decide)
  | logits => simp only [Param.path, List.cons.injEq, and_true] at h; exact absurd h.2.2 (by decide)
  | _ => simp [Importer.plen] at len

theorem pathOf_not_rel {p : Param} (h : ∀ e n, p ≠ .rel e n) : pathOf p = p.path := by
  cases p with
  | rel e n => exact absurd rfl (h e n)
  | _ => rfl

theorem pathOf_inj {p q : Param} (hp : Good p) (hq : Good q) (h : pathOf p = pathOf q) : p = q := by
  by_cases h1 : ∃ e n, p = .rel e n
  · obtain ⟨e, n, rfl⟩ := h1
    by_cases h2 : ∃ e n, q = .rel e n
    · obtain ⟨e', n', rfl⟩ := h2
      simp only [pathOf, List.cons.injEq, and_true] at h
      simp only [Good] at hp hq
      rw [Importer.side_inj h, hp, hq]
    · have h3 : ∀ e' n', q ≠ .rel e' n' := fun e' n' he => h2 ⟨e', n', he⟩
      rw [pathOf_not_rel h3] at h
      exact absurd h (rel_ne e q h3)
  · have h3 : ∀ e' n', p ≠ .rel e' n' := fun e' n' he => h1 ⟨e', n', he⟩
    rw [pathOf_not_rel h3] at h
    by_cases h2 : ∃ e n, q = .rel e n
    · obtain ⟨e', n', rfl⟩ := h2
      exact absurd h.symm (rel_ne e' p h3)
    · have h4 : ∀ e' n', q ≠ .rel e' n' := fun e' n' he => h2 ⟨e', n', he⟩
      rw [pathOf_not_rel h4] at h
      exact Importer.path_inj h

/-- Use a parameter: it is created unless it exists. -/
def ins (ps : List Param) (p : Param) : List Param := if p ∈ ps then ps else ps ++ [p]

/-- Use some parameters. -/
def adds (ps l : List Param) : List Param := l.foldl ins ps

theorem adds_append (ps a b : List Param) : adds (adds ps a) b = adds ps (a ++ b) := (List.foldl_append ..).symm

theorem mem_ins (ps : List Param) (p q : Param) : q ∈ ins ps p ↔ q ∈ ps ∨ q = p := by
  unfold ins
  split_ifs with h
  · constructor
    · exact Or.inl
    · rintro (h1 | rfl)
      · exact h1
      · exact h
  · simp

theorem mem_adds (l ps : List Param) (q : Param) : q ∈ adds ps l ↔ q ∈ ps ∨ q ∈ l := by
  induction l generalizing ps with
  | nil => simp [adds]
  | cons a l ih =>
    have : adds ps (a :: l) = adds (ins ps a) l := rfl
    rw [this, ih, mem_ins, List.mem_cons, or_assoc]

theorem nodup_adds (l ps : List Param) (h : ps.Nodup) : (adds ps l).Nodup := by
  induction l generalizing ps with
  | nil => exact h
  | cons a l ih =>
    refine ih (ins ps a) ?_
    unfold ins
    split_ifs with h1
    · exact h
    · exact List.nodup_append.2 ⟨h, List.nodup_singleton a, by
        intro x hx y hy
        rw [List.mem_singleton.1 hy]
        rintro rfl
        exact h1 hx⟩

theorem good_adds {l ps : List Param} (h : ∀ p ∈ ps, Good p) (hl : ∀ p ∈ l, Good p) : ∀ p ∈ adds ps l, Good p := by
  intro p hp
  rcases (mem_adds l ps p).1 hp with h1 | h1
  · exact h p h1
  · exact hl p h1

variable {cfg : Config}

theorem param_ins {ps : List Param} {p : Param} {scope : List Name} {name : Name} {shape : List Nat} {axes : List Name}
    (hps : ∀ q ∈ ps, Good q) (hp : Good p) (h1 : scope ++ [name] = pathOf p) (h2 : shape = shapeOf cfg p) (h3 : axes = axesOf p) :
    param scope name shape axes (ps.map (varOf cfg)) = some ((ins ps p).map (varOf cfg)) := by
  subst h2 h3
  unfold param
  rw [h1]
  by_cases h : p ∈ ps
  · have hsome : ((ps.map (varOf cfg)).find? fun v => v.path = pathOf p).isSome = true := by
      rw [List.find?_isSome]
      exact ⟨varOf cfg p, List.mem_map_of_mem h, by simp [varOf]⟩
    obtain ⟨v, hv⟩ := Option.isSome_iff_exists.1 hsome
    rw [hv]
    have h4 := List.mem_of_find?_eq_some hv
    have h5 := List.find?_some hv
    obtain ⟨q, hq, rfl⟩ := List.mem_map.1 h4
    have h6 : q = p := pathOf_inj (hps q hq) hp (of_decide_eq_true h5)
    subst h6
    simp [ins, h, varOf]
  · have hnone : (ps.map (varOf cfg)).find? (fun v => v.path = pathOf p) = none := by
      rw [List.find?_eq_none]
      intro v hv
      obtain ⟨q, hq, rfl⟩ := List.mem_map.1 hv
      intro he
      exact h (pathOf_inj (hps q hq) hp (of_decide_eq_true he) ▸ hq)
    rw [hnone]
    simp [ins, h, varOf]

variable {ps : List Param}

theorem layerNorm_ins {x : List Nat} {p : Param} {scope : List Name} (hps : ∀ q ∈ ps, Good q) (hp : Good p)
    (h1 : scope ++ ["scale".toList] = pathOf p) (h2 : shapeOf cfg p = [cfg.embDim]) (h3 : axesOf p = ["embed".toList])
    (hx : x.getLast? = some cfg.embDim) : layerNorm scope x (ps.map (varOf cfg)) = some (x, (adds ps [p]).map (varOf cfg)) := by
  simp only [layerNorm, hx, Option.bind_some, param_ins hps hp h1 h2.symm h3.symm, Option.map_some]
  rfl

theorem dense_ins {f : List Nat} {axis : List Int} {axes : List Name} {x dims : List Nat} {p : Param} {scope : List Name}
    (hps : ∀ q ∈ ps, Good q) (hp : Good p) (h1 : scope ++ ["kernel".toList] = pathOf p)
    (hd : (axis.map (normAxis x.length)).mapM (fun a => x[a]?) = some dims) (h2 : shapeOf cfg p = [dims.prod, f.prod]) (h3 : axesOf p = axes) :
    dense f axis axes scope x (ps.map (varOf cfg)) = some (others (axis.map (normAxis x.length)) x ++ f, (adds ps [p]).map (varOf cfg)) := by
  simp only [dense, hd, Option.bind_some, param_ins hps hp h1 h2.symm h3.symm, Option.map_some]
  rfl

/-- A kernel for the last dimension. -/
theorem dense_last {f : List Nat} {axes : List Name} {B n d : Nat} {p : Param} {scope : List Name}
    (hps : ∀ q ∈ ps, Good q) (hp : Good p) (h1 : scope ++ ["kernel".toList] = pathOf p) (h2 : shapeOf cfg p = [d, f.prod]) (h3 : axesOf p = axes) :
    dense f [-1] axes scope [B, n, d] (ps.map (varOf cfg)) = some ([B, n] ++ f, (adds ps [p]).map (varOf cfg)) :=
  dense_ins (dims := [d]) hps hp h1 rfl (by rw [h2]; simp) h3

/-- A kernel for the last two dimensions. -/
theorem dense_two {f axes : _} {B n h d : Nat} {p : Param} {scope : List Name}
    (hps : ∀ q ∈ ps, Good q) (hp : Good p) (h1 : scope ++ ["kernel".toList] = pathOf p) (h2 : shapeOf cfg p = [h * d, f]) (h3 : axesOf p = axes) :
    dense [f] [-2, -1] axes scope [B, n, h, d] (ps.map (varOf cfg)) = some ([B, n, f], (adds ps [p]).map (varOf cfg)) :=
  dense_ins (dims := [h, d]) hps hp h1 rfl (by rw [h2]; simp) h3

theorem attention_ins {B n m : Nat} {e : Bool} {l : Nat} {k : Attn} (hps : ∀ q ∈ ps, Good q) :
    attention cfg [side e, layerName l, k.name] [B, n, cfg.embDim] [B, m, cfg.embDim] (ps.map (varOf cfg)) =
      some ([B, n, cfg.embDim], (adds ps [.attn e l k .q, .attn e l k .k, .attn e l k .v, .attn e l k .o]).map (varOf cfg)) := by
  have g : ∀ {qs l : List Param}, (∀ q ∈ qs, Good q) → (∀ q ∈ l, Good q) → ∀ q ∈ adds qs l, Good q := fun h1 h2 => good_adds h1 h2
  have one : ∀ (a : Mat), ∀ q ∈ [Param.attn e l k a], Good q := by
    intro a q hq; rw [List.mem_singleton.1 hq]; trivial
  have a1 := one .q
  have a2 := one .k
  have a3 := one .v
  have e1 := dense_last (cfg := cfg) (f := [cfg.numHeads, cfg.headDim]) (axes := ["embed".toList, "joined_kv".toList]) (B := B) (n := n)
    (d := cfg.embDim) (p := .attn e l k .q) (scope := [side e, layerName l, k.name, "query".toList]) hps trivial rfl (by simp [shapeOf]) rfl
  have e2 := dense_last (cfg := cfg) (f := [cfg.numHeads, cfg.headDim]) (axes := ["embed".toList, "joined_kv".toList]) (B := B) (n := m)
    (d := cfg.embDim) (p := .attn e l k .k) (scope := [side e, layerName l, k.name, "key".toList]) (g hps a1) trivial rfl (by simp [shapeOf]) rfl
  have e3 := dense_last (cfg := cfg) (f := [cfg.numHeads, cfg.headDim]) (axes := ["embed".toList, "joined_kv".toList]) (B := B) (n := m)
    (d := cfg.embDim) (p := .attn e l k .v) (scope := [side e, layerName l, k.name, "value".toList]) (g (g hps a1) a2) trivial rfl
    (by simp [shapeOf]) rfl
  have e4 := dense_two (cfg := cfg) (f := cfg.embDim) (axes := ["joined_kv".toList, "embed".toList]) (B := B) (n := n)
    (h := cfg.numHeads) (d := cfg.headDim) (p := .attn e l k .o) (scope := [side e, layerName l, k.name, "out".toList])
    (g (g (g hps a1) a2) a3) trivial rfl (by simp [shapeOf]) rfl
  have hl : [B, n, cfg.embDim].getLast? = some cfg.embDim := rfl
  simp only [attention, e1, Option.bind_some, e2, e3, List.cons_append, List.nil_append, attend, and_self, if_true, hl]
  exact e4

/-- The first kernels of an MLP block. -/
def wiParam (cfg : Config) (e : Bool) (l idx : Nat) : Param := .mlp e l false (if cfg.numActs = 1 then none else some idx)

theorem wi_path (e : Bool) (l idx : Nat) :
    [side e, layerName l, "mlp".toList, wiName cfg.numActs idx, "kernel".toList] = pathOf (wiParam cfg e l idx) := by
  unfold wiName wiParam
  split_ifs <;> rfl

theorem activations_ins {B n : Nat} {e : Bool} {l : Nat} (idxs : List Nat) : ∀ (ps : List Param), (∀ q ∈ ps, Good q) →
    ∀ acc, (acc = none ∨ acc = some [B, n, cfg.mlpDim]) →
    activations cfg [side e, layerName l, "mlp".toList] [B, n, cfg.embDim] idxs acc (ps.map (varOf cfg)) =
      some (if idxs = [] then acc else some [B, n, cfg.mlpDim], (adds ps (idxs.map (wiParam cfg e l))).map (varOf cfg)) := by
  induction idxs with
  | nil => intro ps hps acc ha; rfl
  | cons i rest ih =>
    intro ps hps acc ha
    have hg : ∀ q ∈ [wiParam cfg e l i], Good q := by
      intro q hq; rw [List.mem_singleton.1 hq]; trivial
    unfold activations
    have e1 := dense_last (cfg := cfg) (f := [cfg.mlpDim]) (axes := ["embed".toList, "mlp".toList]) (B := B) (n := n) (d := cfg.embDim)
      (p := wiParam cfg e l i) (scope := [side e, layerName l, "mlp".toList, wiName cfg.numActs i]) hps trivial (wi_path e l i)
      (by simp [shapeOf, wiParam]) rfl
    have h2 : adds (adds ps [wiParam cfg e l i]) (rest.map (wiParam cfg e l)) = adds ps ((i :: rest).map (wiParam cfg e l)) := rfl
    simp only [List.cons_append, List.nil_append] at e1 ⊢
    rw [e1]
    simp only [Option.bind_some]
    rcases ha with rfl | rfl
    · simp only [ih _ (good_adds hps hg) _ (Or.inr rfl), h2, reduceCtorEq, if_false, ite_self]
    · simp only [if_true, ih _ (good_adds hps hg) _ (Or.inr rfl), h2, reduceCtorEq, if_false, ite_self]

/-- The kernels of an MLP block. -/
def mlpParams (cfg : Config) (e : Bool) (l : Nat) : List Param := (List.range cfg.numActs).map (wiParam cfg e l) ++ [.mlp e l true none]

theorem mlp_ins {B n : Nat} {e : Bool} {l : Nat} (hps : ∀ q ∈ ps, Good q) (ha : 0 < cfg.numActs) :
    mlp cfg [side e, layerName l, "mlp".toList] [B, n, cfg.embDim] (ps.map (varOf cfg)) =
      some ([B, n, cfg.embDim], (adds ps (mlpParams cfg e l)).map (varOf cfg)) := by
  have hg : ∀ q ∈ (List.range cfg.numActs).map (wiParam cfg e l), Good q := by
    intro q hq
    obtain ⟨i, -, rfl⟩ := List.mem_map.1 hq
    trivial
  have hne : List.range cfg.numActs ≠ [] := by simp; omega
  unfold mlp
  rw [activations_ins _ ps hps none (Or.inl rfl)]
  have e1 := dense_last (cfg := cfg) (f := [cfg.embDim]) (axes := ["mlp".toList, "embed".toList]) (B := B) (n := n) (d := cfg.mlpDim)
    (p := .mlp e l true none) (scope := [side e, layerName l, "mlp".toList] ++ ["wo".toList]) (good_adds hps hg) trivial rfl
    (by simp [shapeOf]) rfl
  have hl : [B, n, cfg.embDim].getLast? = some cfg.embDim := rfl
  simp only [Option.bind_some, hne, if_false, hl]
  refine e1.trans ?_
  rw [adds_append]
  rfl

/-- No activation: the block raises. -/
theorem mlp_none {x : List Nat} {vars : List Var} {scope : List Name} (ha : cfg.numActs = 0) : mlp cfg scope x vars = none := by
  simp only [mlp, ha, List.range_zero, activations, Option.bind_some, Option.bind_none]

theorem relpos_ins {e : Bool} (hps : ∀ q ∈ ps, Good q) :
    relpos cfg [side e, "relpos_bias".toList] (ps.map (varOf cfg)) = some ((adds ps [.rel e 0]).map (varOf cfg)) := by
  exact param_ins (cfg := cfg) (p := .rel e 0) (scope := [side e, "relpos_bias".toList]) (name := "rel_embedding".toList)
    (shape := [cfg.numHeads, 32]) (axes := ["heads".toList, "relpos_buckets".toList]) hps rfl rfl rfl rfl

def attnParams (e : Bool) (l : Nat) (k : Attn) : List Param := [.attn e l k .q, .attn e l k .k, .attn e l k .v, .attn e l k .o]

/-- The parameters used by an encoder layer. -/
def encParams (cfg : Config) (l : Nat) : List Param :=
  [.rel true 0] ++ ([.ln true l .preAttention] ++ (attnParams true l .encoderSelf ++ ([.ln true l .preMlp] ++ mlpParams cfg true l)))

/-- The parameters used by a decoder layer. -/
def decParams (cfg : Config) (l : Nat) : List Param :=
  [.rel false 0] ++ ([.ln false l .preSelf] ++ (attnParams false l .decoderSelf ++ ([.ln false l .preCross] ++ (attnParams false l .cross ++
    ([.ln false l .preMlp] ++ mlpParams cfg false l)))))

/-- The parameters used by a layer of a decoder-only network. -/
def lmParams (cfg : Config) (l : Nat) : List Param :=
  [.rel false 0] ++ ([.ln false l .preSelf] ++ (attnParams false l .decoderSelf ++ ([.ln false l .preMlp] ++ mlpParams cfg false l)))

theorem good_attn (e : Bool) (l : Nat) (k : Attn) : ∀ q ∈ attnParams e l k, Good q := by
  intro q hq
  simp only [attnParams, List.mem_cons, List.not_mem_nil, or_false] at hq
  rcases hq with rfl | rfl | rfl | rfl <;> trivial

theorem good_ln (e : Bool) (l : Nat) (k : Norm) : ∀ q ∈ [Param.ln e l k], Good q := by
  intro q hq; rw [List.mem_singleton.1 hq]; trivial

theorem good_rel (e : Bool) : ∀ q ∈ [Param.rel e 0], Good q := by
  intro q hq; rw [List.mem_singleton.1 hq]; rfl

theorem good_mlp (e : Bool) (l : Nat) : ∀ q ∈ mlpParams cfg e l, Good q := by
  intro q hq
  rcases List.mem_append.1 hq with hq | hq
  · obtain ⟨i, -, rfl⟩ := List.mem_map.1 hq
    trivial
  · rw [List.mem_singleton.1 hq]; trivial

theorem good_append {a b : List Param} (ha : ∀ q ∈ a, Good q) (hb : ∀ q ∈ b, Good q) : ∀ q ∈ a ++ b, Good q := by
  intro q hq
  rcases List.mem_append.1 hq with h | h
  · exact ha q h
  · exact hb q h

theorem good_enc (l : Nat) : ∀ q ∈ encParams cfg l, Good q :=
  good_append (good_rel _) (good_append (good_ln _ _ _) (good_append (good_attn _ _ _) (good_append (good_ln _ _ _) (good_mlp _ _))))

theorem good_dec (l : Nat) : ∀ q ∈ decParams cfg l, Good q :=
  good_append (good_rel _) (good_append (good_ln _ _ _) (good_append (good_attn _ _ _) (good_append (good_ln _ _ _) (good_append (good_attn _ _ _)
    (good_append (good_ln _ _ _) (good_mlp _ _))))))

theorem good_lm (l : Nat) : ∀ q ∈ lmParams cfg l, Good q :=
  good_append (good_rel _) (good_append (good_ln _ _ _) (good_append (good_attn _ _ _) (good_append (good_ln _ _ _) (good_mlp _ _))))

theorem encLayer_ins {B n l : Nat} (hps : ∀ q ∈ ps, Good q) (ha : 0 < cfg.numActs) :
    encLayer cfg ["encoder".toList, "relpos_bias".toList] (["encoder".toList] ++ [layerName l]) [B, n, cfg.embDim] (ps.map (varOf cfg)) =
      some ([B, n, cfg.embDim], (adds ps (encParams cfg l)).map (varOf cfg)) := by
  have h1 := good_adds hps (good_rel true)
  have h2 := good_adds h1 (good_ln true l .preAttention)
  have h3 := good_adds h2 (good_attn true l .encoderSelf)
  have h4 := good_adds h3 (good_ln true l .preMlp)
  have e1 := relpos_ins (cfg := cfg) (e := true) hps
  have e2 := layerNorm_ins (cfg := cfg) (x := [B, n, cfg.embDim]) (scope := ["encoder".toList] ++ [layerName l] ++ ["pre_attention_layer_norm".toList])
    h1 (p := .ln true l .preAttention) trivial rfl rfl rfl rfl
  have e3 := attention_ins (cfg := cfg) (B := B) (n := n) (m := n) (e := true) (l := l) (k := .encoderSelf) h2
  have e4 := layerNorm_ins (cfg := cfg) (x := [B, n, cfg.embDim]) (scope := ["encoder".toList] ++ [layerName l] ++ ["pre_mlp_layer_norm".toList])
    h3 (p := .ln true l .preMlp) trivial rfl rfl rfl rfl
  have e5 := mlp_ins (cfg := cfg) (B := B) (n := n) (e := true) (l := l) h4 ha
  unfold encLayer
  erw [e1]
  simp only [Option.bind_some, List.length_cons, List.length_nil, Nat.reduceAdd, ne_eq, not_true_eq_false, if_false]
  erw [e2]
  simp only [Option.bind_some]
  erw [e3]
  simp only [Option.bind_some, add, if_true]
  erw [e4]
  simp only [Option.bind_some]
  erw [e5]
  simp only [Option.bind_some, if_true, Option.map_some]
  simp only [adds_append, encParams, attnParams, List.append_assoc]

theorem decLayer_ins {B n m l : Nat} (hps : ∀ q ∈ ps, Good q) (ha : 0 < cfg.numActs) :
    decLayer cfg [B, m, cfg.embDim] ["decoder".toList, "relpos_bias".toList] (["decoder".toList] ++ [layerName l]) [B, n, cfg.embDim]
      (ps.map (varOf cfg)) = some ([B, n, cfg.embDim], (adds ps (decParams cfg l)).map (varOf cfg)) := by
  have h1 := good_adds hps (good_rel false)
  have h2 := good_adds h1 (good_ln false l .preSelf)
  have h3 := good_adds h2 (good_attn false l .decoderSelf)
  have h4 := good_adds h3 (good_ln false l .preCross)
  have h5 := good_adds h4 (good_attn false l .cross)
  have h6 := good_adds h5 (good_ln false l .preMlp)
  have e1 := relpos_ins (cfg := cfg) (e := false) hps
  have e2 := layerNorm_ins (cfg := cfg) (x := [B, n, cfg.embDim]) (scope := ["decoder".toList] ++ [layerName l] ++ ["pre_self_attention_layer_norm".toList])
    h1 (p := .ln false l .preSelf) trivial rfl rfl rfl rfl
  have e3 := attention_ins (cfg := cfg) (B := B) (n := n) (m := n) (e := false) (l := l) (k := .decoderSelf) h2
  have e4 := layerNorm_ins (cfg := cfg) (x := [B, n, cfg.embDim]) (scope := ["decoder".toList] ++ [layerName l] ++ ["pre_cross_attention_layer_norm".toList])
    h3 (p := .ln false l .preCross) trivial rfl rfl rfl rfl
  have e5 := attention_ins (cfg := cfg) (B := B) (n := n) (m := m) (e := false) (l := l) (k := .cross) h4
  have e6 := layerNorm_ins (cfg := cfg) (x := [B, n, cfg.embDim]) (scope := ["decoder".toList] ++ [layerName l] ++ ["pre_mlp_layer_norm".toList])
    h5 (p := .ln false l .preMlp) trivial rfl rfl rfl rfl
  have e7 := mlp_ins (cfg := cfg) (B := B) (n := n) (e := false) (l := l) h6 ha
  unfold decLayer
  erw [e1]
  simp only [Option.bind_some]
  erw [e2]
  simp only [Option.bind_some]
  erw [e3]
  simp only [Option.bind_some, add, if_true]
  erw [e4]
  simp only [Option.bind_some]
  erw [e5]
  simp only [Option.bind_some, if_true]
  erw [e6]
  simp only [Option.bind_some]
  erw [e7]
  simp only [Option.bind_some, if_true, Option.map_some]
  simp only [adds_append, decParams, attnParams, List.append_assoc]

theorem lmLayer_ins {B n l : Nat} (hps : ∀ q ∈ ps, Good q) (ha : 0 < cfg.numActs) :
    lmLayer cfg ["decoder".toList, "relpos_bias".toList] (["decoder".toList] ++ [layerName l]) [B, n, cfg.embDim]
      (ps.map (varOf cfg)) = some ([B, n, cfg.embDim], (adds ps (lmParams cfg l)).map (varOf cfg)) := by
  have h1 := good_adds hps (good_rel false)
  have h2 := good_adds h1 (good_ln false l .preSelf)
  have h3 := good_adds h2 (good_attn false l .decoderSelf)
  have h4 := good_adds h3 (good_ln false l .preMlp)
  have e1 := relpos_ins (cfg := cfg) (e := false) hps
  have e2 := layerNorm_ins (cfg := cfg) (x := [B, n, cfg.embDim]) (scope := ["decoder".toList] ++ [layerName l] ++ ["pre_self_attention_layer_norm".toList])
    h1 (p := .ln false l .preSelf) trivial rfl rfl rfl rfl
  have e3 := attention_ins (cfg := cfg) (B := B) (n := n) (m := n) (e := false) (l := l) (k := .decoderSelf) h2
  have e4 := layerNorm_ins (cfg := cfg) (x := [B, n, cfg.embDim]) (scope := ["decoder".toList] ++ [layerName l] ++ ["pre_mlp_layer_norm".toList])
    h3 (p := .ln false l .preMlp) trivial rfl rfl rfl rfl
  have e5 := mlp_ins (cfg := cfg) (B := B) (n := n) (e := false) (l := l) h4 ha
  unfold lmLayer
  erw [e1]
  simp only [Option.bind_some]
  erw [e2]
  simp only [Option.bind_some]
  erw [e3]
  simp only [Option.bind_some, add, if_true]
  erw [e4]
  simp only [Option.bind_some]
  erw [e5]
  simp only [Option.bind_some, if_true, Option.map_some]
  simp only [adds_append, lmParams, attnParams, List.append_assoc]

theorem loop_ins {layer : List Name → List Nat → List Var → Option (List Nat × List Var)} {scope : List Name} {x : List Nat}
    {pars : Nat → List Param} (hg : ∀ l, ∀ q ∈ pars l, Good q)
    (h : ∀ (l : Nat) (ps : List Param), (∀ q ∈ ps, Good q) →
      layer (scope ++ [layerName l]) x (ps.map (varOf cfg)) = some (x, (adds ps (pars l)).map (varOf cfg))) (ls : List Nat) :
    ∀ ps : List Param, (∀ q ∈ ps, Good q) → loop layer scope ls x (ps.map (varOf cfg)) = some (x, (adds ps (ls.flatMap pars)).map (varOf cfg)) := by
  induction ls with
  | nil => intro ps _; rfl
  | cons l ls ih =>
    intro ps hps
    simp only [loop, h l ps hps, Option.bind_some, ih _ (good_adds hps (hg l)), adds_append, List.flatMap_cons]

theorem good_flat {pars : Nat → List Param} (hg : ∀ l, ∀ q ∈ pars l, Good q) (ls : List Nat) : ∀ q ∈ ls.flatMap pars, Good q := by
  intro q hq
  obtain ⟨l, -, h⟩ := List.mem_flatMap.1 hq
  exact hg l q h

theorem good_one {p : Param} (h : Good p) : ∀ q ∈ [p], Good q := by
  intro q hq; rw [List.mem_singleton.1 hq]; exact h

theorem embed_ins {p : Param} {scope : List Name} {tokens : List Nat} (hps : ∀ q ∈ ps, Good q) (hp : Good p)
    (h1 : scope ++ ["embedding".toList] = pathOf p) (h2 : shapeOf cfg p = [cfg.vocabSize, cfg.embDim])
    (h3 : axesOf p = ["vocab".toList, "embed".toList]) :
    embed cfg scope tokens (ps.map (varOf cfg)) = some (tokens ++ [cfg.embDim], (adds ps [p]).map (varOf cfg)) := by
  simp only [embed, param_ins hps hp h1 h2.symm h3.symm, Option.map_some]
  rfl

/-- The parameter of the logits. -/
def logitParams (cfg : Config) : List Param := if cfg.viaEmbedding then [] else [.logits]

theorem logits_ins {B n : Nat} (hps : ∀ q ∈ ps, Good q) :
    logits cfg ["decoder".toList] [B, n, cfg.embDim] (ps.map (varOf cfg)) =
      some ([B, n, cfg.vocabSize], (adds ps (logitParams cfg)).map (varOf cfg)) := by
  unfold logits logitParams
  cases cfg.viaEmbedding with
  | true => simp [adds]
  | false =>
    simp only [Bool.false_eq_true, if_false]
    exact dense_last (cfg := cfg) (f := [cfg.vocabSize]) (axes := ["embed".toList, "vocab".toList]) (p := .logits)
      (scope := ["decoder".toList] ++ ["logits_dense".toList]) hps trivial rfl (by simp [shapeOf]) rfl

/-- All uses of parameters in the encoder. -/
def encCalls (cfg : Config) : List Param := [.shared] ++ ((List.range cfg.numEnc).flatMap (encParams cfg) ++ [.finalLn true])

theorem good_encCalls : ∀ q ∈ encCalls cfg, Good q :=
  good_append (good_one trivial) (good_append (good_flat good_enc _) (good_one trivial))

theorem encoder_ins {B m : Nat} (hps : ∀ q ∈ ps, Good q) (ha : 0 < cfg.numActs ∨ cfg.numEnc = 0) :
    encoder cfg [B, m] (ps.map (varOf cfg)) = some ([B, m, cfg.embDim], (adds ps (encCalls cfg)).map (varOf cfg)) := by
  have h1 := good_adds (l := [Param.shared]) hps (good_one trivial)
  have h2 := good_adds h1 (good_flat (pars := encParams cfg) good_enc (List.range cfg.numEnc))
  unfold encoder
  simp only [List.length_cons, List.length_nil, Nat.reduceAdd, ne_eq, not_true_eq_false, if_false]
  rw [embed_ins (p := .shared) hps trivial rfl rfl rfl]
  simp only [Option.bind_some, List.cons_append, List.nil_append]
  have hl : loop (encLayer cfg ["encoder".toList, "relpos_bias".toList]) ["encoder".toList] (List.range cfg.numEnc) [B, m, cfg.embDim]
      ((adds ps [Param.shared]).map (varOf cfg)) =
      some ([B, m, cfg.embDim], (adds (adds ps [.shared]) ((List.range cfg.numEnc).flatMap (encParams cfg))).map (varOf cfg)) := by
    rcases ha with ha | ha
    · exact loop_ins good_enc (fun l ps hps => encLayer_ins hps ha) _ _ h1
    · rw [ha]; rfl
  rw [hl]
  simp only [Option.bind_some]
  rw [layerNorm_ins (p := .finalLn true) h2 trivial rfl rfl rfl rfl]
  simp only [adds_append, encCalls, List.append_assoc]

/-- All uses of parameters in the decoder. -/
def decCalls (cfg : Config) : List Param :=
  [.shared] ++ ((List.range cfg.numDec).flatMap (decParams cfg) ++ ([.finalLn false] ++ logitParams cfg))

theorem decoder_ins {B n m : Nat} (hps : ∀ q ∈ ps, Good q) (ha : 0 < cfg.numActs ∨ cfg.numDec = 0) :
    decoder cfg [B, m, cfg.embDim] [B, n] (ps.map (varOf cfg)) = some ([B, n, cfg.vocabSize], (adds ps (decCalls cfg)).map (varOf cfg)) := by
  have h1 := good_adds (l := [Param.shared]) hps (good_one trivial)
  have h2 := good_adds h1 (good_flat (pars := decParams cfg) good_dec (List.range cfg.numDec))
  have h3 := good_adds (l := [Param.finalLn false]) h2 (good_one trivial)
  unfold decoder
  simp only [List.length_cons, List.length_nil, Nat.reduceAdd, ne_eq, not_true_eq_false, if_false]
  rw [embed_ins (p := .shared) hps trivial rfl rfl rfl]
  simp only [Option.bind_some, List.cons_append, List.nil_append]
  have hl : loop (decLayer cfg [B, m, cfg.embDim] ["decoder".toList, "relpos_bias".toList]) ["decoder".toList] (List.range cfg.numDec)
      [B, n, cfg.embDim] ((adds ps [Param.shared]).map (varOf cfg)) =
      some ([B, n, cfg.embDim], (adds (adds ps [.shared]) ((List.range cfg.numDec).flatMap (decParams cfg))).map (varOf cfg)) := by
    rcases ha with ha | ha
    · exact loop_ins good_dec (fun l ps hps => decLayer_ins hps ha) _ _ h1
    · rw [ha]; rfl
  rw [hl]
  simp only [Option.bind_some]
  rw [layerNorm_ins (p := .finalLn false) h2 trivial rfl rfl rfl rfl]
  simp only [Option.bind_some]
  rw [logits_ins h3]
  simp only [adds_append, decCalls, List.append_assoc]

/-- All uses of parameters in a decoder-only network. -/
def lmCalls (cfg : Config) : List Param :=
  [.emb false] ++ ((List.range cfg.numDec).flatMap (lmParams cfg) ++ ([.finalLn false] ++ logitParams cfg))

theorem initLm_eq {B n : Nat} (ha : 0 < cfg.numActs ∨ cfg.numDec = 0) :
    initLm cfg [B, n] = some ((adds [] (lmCalls cfg)).map (varOf cfg)) := by
  have h0 : ∀ q ∈ ([] : List Param), Good q := by simp
  have h1 := good_adds (l := [Param.emb false]) h0 (good_one trivial)
  have h2 := good_adds h1 (good_flat (pars := lmParams cfg) good_lm (List.range cfg.numDec))
  have h3 := good_adds (l := [Param.finalLn false]) h2 (good_one trivial)
  unfold initLm
  simp only [List.length_cons, List.length_nil, Nat.reduceAdd, ne_eq, not_true_eq_false, if_false]
  have he : embed cfg ["decoder".toList, "token_embedder".toList] [B, n] [] =
      some ([B, n] ++ [cfg.embDim], (adds [] [Param.emb false]).map (varOf cfg)) :=
    embed_ins (ps := []) (p := .emb false) h0 trivial rfl rfl rfl
  rw [he]
  simp only [Option.bind_some, List.cons_append, List.nil_append]
  have hl : loop (lmLayer cfg ["decoder".toList, "relpos_bias".toList]) ["decoder".toList] (List.range cfg.numDec)
      [B, n, cfg.embDim] ((adds [] [Param.emb false]).map (varOf cfg)) =
      some ([B, n, cfg.embDim], (adds (adds [] [.emb false]) ((List.range cfg.numDec).flatMap (lmParams cfg))).map (varOf cfg)) := by
    rcases ha with ha | ha
    · exact loop_ins good_lm (fun l ps hps => lmLayer_ins hps ha) _ _ h1
    · rw [ha]; rfl
  rw [hl]
  simp only [Option.bind_some]
  rw [layerNorm_ins (p := .finalLn false) h2 trivial rfl rfl rfl rfl]
  simp only [Option.bind_some]
  rw [logits_ins h3]
  simp only [adds_append, lmCalls, List.append_assoc, Option.map_some]

theorem initT5_eq {B n m : Nat} {es ds : Bool} (ha : 0 < cfg.numActs ∨ (cfg.numEnc = 0 ∧ cfg.numDec = 0)) (hs : es = true → ds = true) :
    initT5 cfg [B, m] [B, n] es ds = some ((adds [] (encCalls cfg ++ decCalls cfg)).map (varOf cfg)) := by
  have h0 : ∀ q ∈ ([] : List Param), Good q := by simp
  have he : encoder cfg [B, m] [] = some ([B, m, cfg.embDim], (adds [] (encCalls cfg)).map (varOf cfg)) :=
    encoder_ins (ps := []) h0 (ha.imp id And.left)
  have hs' : (es && !ds) = false := by cases es <;> cases ds <;> simp_all
  unfold initT5
  simp only [List.length_cons, List.length_nil, Nat.reduceAdd, ne_eq, not_true_eq_false, if_false, he, Option.bind_some, hs', Bool.false_eq_true]
  rw [decoder_ins (good_adds h0 good_encCalls) (ha.imp id And.right), adds_append]
  rfl

end Verif.InitT5
