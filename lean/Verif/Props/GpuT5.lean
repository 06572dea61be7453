import Verif.Model.GpuT5
import Verif.Props.T5Decode
import Mathlib.Algebra.BigOperators.Field
/-
Property C101: the T5 network for GPUs computes what the T5 network computes with its query kernels divided by the root of the head dimension,
on tokens of the vocabulary.
-/
namespace Verif.GpuT5
open Verif.Masks Verif.KVCache
open Verif.Transformer (Vec Kernel Attn EncLayer DecLayer Net Input)

variable {d h e f V : Nat} {ex : ℝ → ℝ} {lg : ℕ → ℝ}

namespace Spec

/-- A network whose query kernels are multiplied by a number. -/
noncomputable def timesQuery (a : ℝ) (net : Net d h e f V) : Net d h e f V :=
  let q : Attn d h e → Attn d h e := fun p => { p with query := fun i j => p.query i j * a }
  { net with
    enc := net.enc.map fun l => { l with attention := q l.attention }
    dec := net.dec.map fun l => { l with self := q l.self, cross := q l.cross } }

/-- Tokens of a vocabulary of size V. -/
def InVocab (V : Nat) (t : Int) : Prop := 0 ≤ t ∧ t < V

end Spec
open Spec

/-- The factor that corresponds to `scale_attn_logits`. -/
noncomputable def factor (scale : Bool) (e : Nat) : ℝ := if scale then 1 / √e else 1

/-- What `timesQuery` does to one block. -/
noncomputable def timesAttn (a : ℝ) (p : Attn d h e) : Attn d h e := { p with query := fun i j => p.query i j * a }

theorem embed_eq (table : Kernel V d) (t : Int) (ht : InVocab V t) : embed table t = Transformer.embed table t := by
  obtain ⟨h0, h1⟩ := ht
  obtain ⟨k, rfl⟩ := Int.eq_ofNat_of_zero_le h0
  have hk : k < V := by omega
  funext j
  have e1 : ((if ((k : Int)) < 0 then (k : Int) + V else (k : Int)) ⊓ ((V : Int) - 1) ⊔ 0).toNat = k := by
    rw [if_neg (by omega)]; omega
  simp only [embed, e1, dif_pos hk, Transformer.embed]
  rw [Finset.sum_eq_single ⟨k, hk⟩]
  · simp
  · intro v _ hv
    have : ¬ ((k : Int) = (v.val : Int)) := fun hc => hv (Fin.ext (by simpa using (Int.ofNat_inj.1 hc).symm))
    rw [if_neg this, zero_mul]
  · intro hc; exact absurd (Finset.mem_univ _) hc

theorem project_scaled (scale : Bool) (p : Attn d h e) (x : Vec d) :
    Transformer.project p.query (queryInput scale e x) = Transformer.project (timesAttn (factor scale e) p).query x := by
  funext hd c
  simp only [Transformer.project, queryInput, timesAttn, factor]
  refine Finset.sum_congr rfl fun i _ => ?_
  cases scale <;> simp <;> ring

theorem attention_scaled (scale : Bool) {L : Nat} (p : Attn d h e) (xq : Vec d) (xkv : Fin L → Vec d) (mask : Option (Fin L → Int))
    (bias : Option (Fin h → Fin L → ℝ)) :
    attention scale ex p xq xkv mask bias = Transformer.attention ex (timesAttn (factor scale e) p) xq xkv mask bias := by
  simp only [attention, Transformer.attention, project_scaled]
  rfl

theorem selfStep_scaled (scale : Bool) {L : Nat} (p : Attn d h e) (row : Nat → Fin h → Fin L → ℝ) (c : Cache h e L) (x : Vec d) :
    selfStep scale ex p row c x = T5Decode.selfStep ex (timesAttn (factor scale e) p) row c x := by
  simp only [selfStep, T5Decode.selfStep, project_scaled]
  rfl

/-- The layers of `timesQuery`. -/
noncomputable def timesEnc (a : ℝ) (l : EncLayer d h e f) : EncLayer d h e f := { l with attention := timesAttn a l.attention }

/-- The layers of `timesQuery`. -/
noncomputable def timesDec (a : ℝ) (l : DecLayer d h e f) : DecLayer d h e f :=
  { l with self := timesAttn a l.self, cross := timesAttn a l.cross }

theorem encLayer_scaled (scale : Bool) (net : Net d h e f V) {n : Nat} (mask : Option (Mask n n)) (x : Fin n → Vec d) (l : EncLayer d h e f) :
    encLayer scale ex lg net mask x l =
      Transformer.encLayer ex lg (timesQuery (factor scale e) net) mask x (timesEnc (factor scale e) l) := by
  funext i
  simp only [encLayer, Transformer.encLayer, attention_scaled]
  rfl

theorem decLayer_scaled (scale : Bool) (net : Net d h e f V) {n m : Nat} (mask : Option (Mask n n)) (cross : Option (Mask n m))
    (encoded : Fin m → Vec d) (x : Fin n → Vec d) (l : DecLayer d h e f) :
    decLayer scale ex lg net mask cross encoded x l =
      Transformer.decLayer ex lg (timesQuery (factor scale e) net) mask cross encoded x (timesDec (factor scale e) l) := by
  funext i
  simp only [decLayer, Transformer.decLayer, attention_scaled]
  rfl

theorem layerStep_scaled (scale : Bool) (net : Net d h e f V) {L m : Nat} (cross : Fin m → Int) (encoded : Fin m → Vec d)
    (l : DecLayer d h e f) (c : Cache h e L) (x : Vec d) :
    layerStep scale ex lg net cross encoded l c x =
      T5Decode.layerStep ex lg (timesQuery (factor scale e) net) cross encoded (timesDec (factor scale e) l) c x := by
  simp only [layerStep, T5Decode.layerStep, attention_scaled, selfStep_scaled]
  rfl

theorem encoder_scaled (scale : Bool) (net : Net d h e f V) {n : Nat} (tokens : Row n) (hv : ∀ i, InVocab V (tokens i))
    (mask : Option (Mask n n)) :
    encoder scale ex lg net tokens mask = Transformer.encoder ex lg (timesQuery (factor scale e) net) tokens mask := by
  have key : ∀ (ls : List (EncLayer d h e f)) (x : Fin n → Vec d), ls.foldl (encLayer scale ex lg net mask) x =
      (ls.map (timesEnc (factor scale e))).foldl (Transformer.encLayer ex lg (timesQuery (factor scale e) net) mask) x := by
    intro ls
    induction ls with
    | nil => intro x; simp only [List.map_nil, List.foldl_nil]
    | cons l ls ih => intro x; simp only [List.foldl_cons, List.map_cons, encLayer_scaled, ih]
  funext i
  simp only [encoder, Transformer.encoder]
  rw [key, show (fun i => embed net.table (tokens i)) = fun i => Transformer.embed net.table (tokens i) from
    funext fun i => embed_eq _ _ (hv i)]
  rfl

theorem decoder_scaled (scale : Bool) (net : Net d h e f V) {n m : Nat} (encoded : Fin m → Vec d) (tokens : Row n)
    (hv : ∀ i, InVocab V (tokens i)) (mask : Option (Mask n n)) (cross : Option (Mask n m)) :
    decoder scale ex lg net encoded tokens mask cross =
      Transformer.decoder ex lg (timesQuery (factor scale e) net) encoded tokens mask cross := by
  have key : ∀ (ls : List (DecLayer d h e f)) (x : Fin n → Vec d), ls.foldl (decLayer scale ex lg net mask cross encoded) x =
      (ls.map (timesDec (factor scale e))).foldl (Transformer.decLayer ex lg (timesQuery (factor scale e) net) mask cross encoded) x := by
    intro ls
    induction ls with
    | nil => intro x; simp only [List.map_nil, List.foldl_nil]
    | cons l ls ih => intro x; simp only [List.foldl_cons, List.map_cons, decLayer_scaled, ih]
  funext i
  simp only [decoder, Transformer.decoder]
  rw [key, show (fun i => embed net.table (tokens i)) = fun i => Transformer.embed net.table (tokens i) from
    funext fun i => embed_eq _ _ (hv i)]
  rfl

/-- C101: on tokens of the vocabulary the network for GPUs with `scale_attn_logits` is the T5 network whose query kernels are divided by the
root of the head dimension; without it, it is the T5 network. -/
theorem C101_same (net : Net d h e f V) {n m : Nat} (b : Input n m) (h1 : ∀ i, InVocab V (b.encTokens i))
    (h2 : ∀ i, InVocab V (b.decInputs i)) :
    apply true ex lg net b = Transformer.apply ex lg (timesQuery (1 / √e) net) b ∧
    apply false ex lg net b = Transformer.apply ex lg net b := by
  have key : ∀ scale : Bool, apply scale ex lg net b = Transformer.apply ex lg (timesQuery (factor scale e) net) b := by
    intro scale
    simp only [apply, Transformer.apply, Transformer.encode, encoder_scaled scale net b.encTokens h1]
    simp only [decoder_scaled scale net _ b.decInputs h2]
  refine ⟨key true, ?_⟩
  rw [key false]
  congr 1
  simp [timesQuery, factor]

theorem stackStep_scaled (scale : Bool) (net : Net d h e f V) {L m : Nat} (cross : Fin m → Int) (encoded : Fin m → Vec d) :
    ∀ (cs : List (DecLayer d h e f × Cache h e L)) (x : Vec d),
      T5Decode.stackStep ex lg (timesQuery (factor scale e) net) cross encoded (cs.map fun c => (timesDec (factor scale e) c.1, c.2)) x =
        ((stackStep scale ex lg net cross encoded cs x).1,
          (stackStep scale ex lg net cross encoded cs x).2.map fun c => (timesDec (factor scale e) c.1, c.2)) := by
  intro cs
  induction cs with
  | nil => intro x; rfl
  | cons c cs ih =>
    intro x
    simp only [List.map_cons, T5Decode.stackStep, stackStep, ← layerStep_scaled, ih]

/-- C101: the same holds for decoding token by token. -/
theorem C101_decode (net : Net d h e f V) {m : Nat} (L : Nat) (encTokens : Row m) (h1 : ∀ i, InVocab V (encTokens i)) (tokens : List Int)
    (h2 : ∀ t ∈ tokens, InVocab V t) :
    predict true ex lg net L encTokens tokens = T5Decode.predict ex lg (timesQuery (1 / √e) net) L encTokens tokens ∧
    predict false ex lg net L encTokens tokens = T5Decode.predict ex lg net L encTokens tokens := by
  have key : ∀ scale : Bool, predict scale ex lg net L encTokens tokens =
      T5Decode.predict ex lg (timesQuery (factor scale e) net) L encTokens tokens := by
    intro scale
    have kf : ∀ (encoded : Fin m → Vec d) (tokens : List Int), (∀ t ∈ tokens, InVocab V t) → ∀ cs : List (DecLayer d h e f × Cache h e L),
        feed (step scale ex lg net encTokens encoded) cs tokens =
          feed (T5Decode.step ex lg (timesQuery (factor scale e) net) encTokens encoded)
            (cs.map fun c => (timesDec (factor scale e) c.1, c.2)) tokens := by
      intro encoded tokens
      induction tokens with
      | nil => intro _ cs; rfl
      | cons t ts ih =>
        intro ht cs
        have e1 : T5Decode.step ex lg (timesQuery (factor scale e) net) encTokens encoded
            (cs.map fun c => (timesDec (factor scale e) c.1, c.2)) t =
            ((step scale ex lg net encTokens encoded cs t).1,
              (step scale ex lg net encTokens encoded cs t).2.map fun c => (timesDec (factor scale e) c.1, c.2)) := by
          simp only [T5Decode.step, step, stackStep_scaled, embed_eq net.table t (ht t (List.mem_cons_self ..))]
          rfl
        simp only [feed, e1]
        rw [ih (fun t' h' => ht t' (List.mem_cons_of_mem _ h'))]
    simp only [predict, T5Decode.predict, encoder_scaled scale net encTokens h1]
    congr 1
    funext mask
    rw [kf _ tokens h2]
    congr 1
    simp only [T5Decode.emptyCaches, timesQuery, List.map_map]
    rfl
  refine ⟨key true, ?_⟩
  rw [key false]
  congr 1
  simp [timesQuery, factor]

theorem timesQuery_mul (a b : ℝ) (net : Net d h e f V) : timesQuery a (timesQuery b net) = timesQuery (b * a) net := by
  simp only [timesQuery, List.map_map, Function.comp_def, mul_assoc]

theorem timesQuery_one (net : Net d h e f V) : timesQuery 1 net = net := by
  simp [timesQuery]

/-- C101, using T5 checkpoints: a network for GPUs with `scale_attn_logits` whose query kernels are those of a T5 network times the root of
the head dimension computes what the T5 network computes, for whole rows and token by token. -/
theorem C101_convert (net : Net d h e f V) (he : 0 < e) {n m : Nat} (b : Input n m) (h1 : ∀ i, InVocab V (b.encTokens i))
    (h2 : ∀ i, InVocab V (b.decInputs i)) (L : Nat) (tokens : List Int) (h3 : ∀ t ∈ tokens, InVocab V t) :
    apply true ex lg (timesQuery √e net) b = Transformer.apply ex lg net b ∧
    predict true ex lg (timesQuery √e net) L b.encTokens tokens = T5Decode.predict ex lg net L b.encTokens tokens := by
  have hs : √(e : ℝ) * (1 / √e) = 1 := mul_one_div_cancel (Real.sqrt_ne_zero'.2 (by exact_mod_cast he))
  constructor
  · rw [(C101_same _ b h1 h2).1, timesQuery_mul, hs, timesQuery_one]
  · rw [(C101_decode _ L b.encTokens h1 tokens h3).1, timesQuery_mul, hs, timesQuery_one]

/-- C101, a limit: the scaling is applied twice to a freshly initialised model, since the query initialiser divides by the root of the head
dimension in any case: the queries are those of `kernel_init` divided by the head dimension, and so are the products with the keys. -/
theorem C101_init (p : Attn d h e) (kernel : Kernel d (h * e)) (hp : p.query = queryInit e kernel) (x y : Vec d) (hd : Fin h) :
    (∑ c, Transformer.project p.query (queryInput true e x) hd c * Transformer.project p.key y hd c) =
      (∑ c, Transformer.project kernel x hd c * Transformer.project p.key y hd c) / e := by
  rw [Finset.sum_div]
  refine Finset.sum_congr rfl fun c _ => ?_
  have hss : √(e : ℝ) * √e = e := Real.mul_self_sqrt (Nat.cast_nonneg _)
  have : Transformer.project p.query (queryInput true e x) hd c = Transformer.project kernel x hd c / e := by
    rw [hp]
    simp only [Transformer.project, queryInput, queryInit, if_true]
    rw [Finset.sum_div]
    refine Finset.sum_congr rfl fun i _ => ?_
    rw [div_mul_div_comm, hss]
  rw [this]; ring

/-- C101, a limit: outside the vocabulary the two networks differ.  The T5 network embeds every such token as zero, the one for GPUs embeds
large tokens as the last row of the table and -1 as well. -/
theorem C101_outside (table : Kernel V d) (hV : 0 < V) (t : Int) (ht : t < 0 ∨ (V : Int) ≤ t) :
    Transformer.embed table t = (fun _ => 0) ∧ ((V : Int) ≤ t ∨ t = -1 → embed table t = table ⟨V - 1, by omega⟩) := by
  constructor
  · funext j
    refine Finset.sum_eq_zero fun v _ => ?_
    have := v.isLt
    rw [if_neg (by omega), zero_mul]
  · intro h1
    funext j
    have e1 : ((if t < 0 then t + V else t) ⊓ ((V : Int) - 1) ⊔ 0).toNat = V - 1 := by
      rcases h1 with h1 | rfl
      · rw [if_neg (by omega)]; omega
      · rw [if_pos (by omega)]; omega
    simp only [embed, e1, dif_pos (show V - 1 < V by omega)]

/-! ### The hypotheses can be met -/

/-- With head dimension 4 the query kernels are halved. -/
example : ∃ (net : Net 1 1 4 1 2) (b : Input 1 1), (∀ i, InVocab 2 (b.encTokens i)) ∧ (∀ i, InVocab 2 (b.decInputs i)) ∧
    (timesQuery (1 / √(4 : ℕ)) net).enc.map (fun l => l.attention.query 0 0) = [3] ∧ net.enc.map (fun l => l.attention.query 0 0) = [6] := by
  refine ⟨⟨0, fun _ _ => 1, fun _ _ => 0, [⟨fun _ => 1, ⟨fun _ _ => 6, fun _ _ => 1, fun _ _ => 1, fun _ _ => 1⟩, fun _ => 1,
    ⟨(id, fun _ _ => 1), [], fun _ _ => 1⟩⟩], fun _ => 1, fun _ _ => 0, [], fun _ => 1, .viaEmbedding⟩, ⟨![1], ![0], ![1], none, none⟩,
    by simp [InVocab], by simp [InVocab], ?_, rfl⟩
  have h4 : √((4 : ℕ) : ℝ) = 2 := by
    rw [show ((4 : ℕ) : ℝ) = 2 ^ 2 by norm_num]; exact Real.sqrt_sq (by norm_num)
  rw [h4]
  norm_num [timesQuery]

/-- A token outside the vocabulary that is embedded differently. -/
example : Transformer.embed (fun (_ : Fin 2) (_ : Fin 1) => (7 : ℝ)) 2 0 = 0 ∧ embed (fun (_ : Fin 2) (_ : Fin 1) => (7 : ℝ)) 2 0 = 7 := by
  obtain ⟨a, b⟩ := C101_outside (fun (_ : Fin 2) (_ : Fin 1) => (7 : ℝ)) (by norm_num) 2 (by norm_num)
  rw [a, b (by norm_num)]
  exact ⟨rfl, rfl⟩

end Verif.GpuT5
