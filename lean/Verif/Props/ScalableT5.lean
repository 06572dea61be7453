import Verif.Model.ScalableT5
import Verif.Props.T5Decode
/-
Property C100: the scalable T5 network computes the same whether its layers are scanned or not, it is the T5 network if all layers have the
same bias table, and packing, padding and decoding are exact for it too.
-/
namespace Verif.ScalableT5
open Verif.Masks Verif.KVCache
open Verif.Transformer (Vec Kernel Mlp Head Input Corr joined)
open Verif.Transformer.Spec (Underflows logitBound InSeg SameText Everywhere SegsOk)

variable {d h e f V N M : Nat}

/-! ### The parameters in other layouts -/

/-- The kernels with heads and features of a head joined, as `/repo/t5x/examples/t5` stores them (row major). -/
def Attn.flat (p : Attn d h e) : Transformer.Attn d h e :=
  let hd : Fin (h * e) → Fin h := fun j => (finProdFinEquiv.symm j).1
  let ft : Fin (h * e) → Fin e := fun j => (finProdFinEquiv.symm j).2
  ⟨fun i j => p.query i (hd j) (ft j), fun i j => p.key i (hd j) (ft j), fun i j => p.value i (hd j) (ft j), fun j i => p.out (hd j) (ft j) i⟩

/-- A layer without its bias table. -/
def EncLayer.flat (l : EncLayer d h e f) : Transformer.EncLayer d h e f := ⟨l.preAttention, l.attention.flat, l.preMlp, l.mlp⟩

/-- A layer without its bias table. -/
def DecLayer.flat (l : DecLayer d h e f) : Transformer.DecLayer d h e f :=
  ⟨l.preSelf, l.self.flat, l.preCross, l.cross.flat, l.preMlp, l.mlp⟩

/-- The T5 network with given bias tables and the other parameters of a scalable T5 network. -/
def Net.toT5 (net : Net d h e f V) (encRel decRel : Fin h → ℤ → ℝ) : Transformer.Net d h e f V :=
  ⟨net.eps, net.table, encRel, net.enc.map EncLayer.flat, net.encNorm, decRel, net.dec.map DecLayer.flat, net.decNorm, net.head⟩

/-- The layers of a scanned network one by one. -/
def Scanned.unstack (net : Scanned N M d h e f V) : Net d h e f V :=
  ⟨net.eps, net.table, List.ofFn net.enc.slice, net.encNorm, List.ofFn net.dec.slice, net.decNorm, net.head⟩

namespace Spec

/-- The parameters are not so large that an attention logit could reach the order of the mask bias -1e10. -/
structure Tame (net : Net d h e f V) (θ B : ℝ) : Prop where
  eps : 0 ≤ net.eps
  gap : 2 * B + θ ≤ 1e10
  enc : ∀ l ∈ net.enc, ∃ r, (∀ hd b, |l.rel hd b| ≤ r) ∧ ∀ hd, logitBound l.attention.flat l.preAttention l.preAttention r hd ≤ B
  dec : ∀ l ∈ net.dec, ∃ r, (∀ hd b, |l.rel hd b| ≤ r) ∧ ∀ hd, logitBound l.self.flat l.preSelf l.preSelf r hd ≤ B
  cross : ∀ l ∈ net.dec, ∀ hd, logitBound l.cross.flat l.preCross net.encNorm 0 hd ≤ B

end Spec
open Spec

variable {ex : ℝ → ℝ} {lg : ℕ → ℝ} {net : Net d h e f V} {θ B : ℝ}

/-! ### Layers are T5 layers -/

theorem project_flat (k : Fin d → Fin h → Fin e → ℝ) (x : Vec d) :
    Transformer.project (fun i j => k i (finProdFinEquiv.symm j).1 (finProdFinEquiv.symm j).2) x = project k x := by
  funext hd c
  simp only [Transformer.project, project, joined, Equiv.symm_apply_apply]

theorem projectOut_flat (k : Fin h → Fin e → Fin d → ℝ) (y : Fin h → Fin e → ℝ) :
    Transformer.projectOut (fun j i => k (finProdFinEquiv.symm j).1 (finProdFinEquiv.symm j).2 i) y = projectOut k y := by
  funext i
  simp only [Transformer.projectOut, projectOut, joined, Equiv.symm_apply_apply]

theorem attention_flat {L : Nat} (p : Attn d h e) (xq : Vec d) (xkv : Fin L → Vec d) (mask : Option (Fin L → Int))
    (bias : Option (Fin h → Fin L → ℝ)) : attention ex p xq xkv mask bias = Transformer.attention ex p.flat xq xkv mask bias := by
  simp only [attention, Transformer.attention, Attn.flat, project_flat, projectOut_flat]

theorem selfStep_flat {L : Nat} (p : Attn d h e) (row : Nat → Fin h → Fin L → ℝ) (c : Cache h e L) (x : Vec d) :
    selfStep ex p row c x = T5Decode.selfStep ex p.flat row c x := by
  simp only [selfStep, T5Decode.selfStep, Attn.flat, project_flat, projectOut_flat]

/-- A T5 network with one encoder layer. -/
def encView (net : Net d h e f V) (l : EncLayer d h e f) : Transformer.Net d h e f V :=
  ⟨net.eps, net.table, l.rel, [l.flat], net.encNorm, l.rel, [], net.decNorm, net.head⟩

/-- A T5 network with one decoder layer. -/
def decView (net : Net d h e f V) (l : DecLayer d h e f) : Transformer.Net d h e f V :=
  ⟨net.eps, net.table, l.rel, [], net.encNorm, l.rel, [l.flat], net.decNorm, net.head⟩

theorem encView_tame (ht : Tame net θ B) (l : EncLayer d h e f) (hl : l ∈ net.enc) : Transformer.Spec.Tame (encView net l) θ B := by
  obtain ⟨r, hr, hB⟩ := ht.enc l hl
  refine ⟨ht.eps, ht.gap, ⟨r, hr, ?_⟩, ⟨r, hr, ?_⟩, ?_⟩
  · intro l' hl'
    simp only [encView, List.mem_singleton] at hl'
    subst hl'
    exact hB
  · intro l' hl'; simp [encView] at hl'
  · intro l' hl'; simp [encView] at hl'

theorem decView_tame (ht : Tame net θ B) (l : DecLayer d h e f) (hl : l ∈ net.dec) : Transformer.Spec.Tame (decView net l) θ B := by
  obtain ⟨r, hr, hB⟩ := ht.dec l hl
  refine ⟨ht.eps, ht.gap, ⟨r, hr, ?_⟩, ⟨r, hr, ?_⟩, ?_⟩
  · intro l' hl'; simp [decView] at hl'
  · intro l' hl'
    simp only [decView, List.mem_singleton] at hl'
    subst hl'
    exact hB
  · intro l' hl'
    simp only [decView, List.mem_singleton] at hl'
    subst hl'
    exact ht.cross l hl

theorem encLayer_flat {n : Nat} (tnet : Transformer.Net d h e f V) (l : EncLayer d h e f) (h1 : tnet.encRel = l.rel) (mask : Option (Mask n n))
    (x : Fin n → Vec d) : encLayer ex lg tnet.eps mask x l = Transformer.encLayer ex lg tnet mask x l.flat := by
  funext i
  simp only [encLayer, Transformer.encLayer, attention_flat, EncLayer.flat, h1]

theorem decLayer_flat {n m : Nat} (tnet : Transformer.Net d h e f V) (l : DecLayer d h e f) (h1 : tnet.decRel = l.rel) (mask : Option (Mask n n))
    (cross : Option (Mask n m)) (encoded : Fin m → Vec d) (x : Fin n → Vec d) :
    decLayer ex lg tnet.eps mask cross encoded x l = Transformer.decLayer ex lg tnet mask cross encoded x l.flat := by
  funext i
  simp only [decLayer, Transformer.decLayer, attention_flat, DecLayer.flat, h1]

theorem layerStep_flat {L m : Nat} (tnet : Transformer.Net d h e f V) (l : DecLayer d h e f) (h1 : tnet.decRel = l.rel) (cross : Fin m → Int)
    (encoded : Fin m → Vec d) (c : Cache h e L) (x : Vec d) :
    layerStep ex lg tnet.eps cross encoded l c x = T5Decode.layerStep ex lg tnet cross encoded l.flat c x := by
  simp only [layerStep, T5Decode.layerStep, attention_flat, selfStep_flat, DecLayer.flat, h1]

/-! ### Scanned layers -/

theorem carry_eq {X : Type} : ∀ {N : Nat} (layer : Fin N → X → X) (x : X),
    carry layer x N = (List.ofFn layer).foldl (fun x g => g x) x := by
  intro N
  induction N with
  | zero => intro layer x; rfl
  | succ N ih =>
    intro layer x
    have hpre : ∀ i ≤ N, carry layer x i = carry (fun k : Fin N => layer k.castSucc) x i := by
      intro i
      induction i with
      | zero => intro _; rfl
      | succ i ih' =>
        intro hi
        rw [carry, carry, dif_pos (by omega), dif_pos (by omega), ih' (by omega)]
        rfl
    rw [List.ofFn_succ_last, List.foldl_append, ← ih, carry, dif_pos (Nat.lt_succ_self N), hpre N le_rfl]
    rfl

theorem carry_layers {X A : Type} (step : X → A → X) (s : Fin N → A) (x : X) :
    carry (fun k x => step x (s k)) x N = (List.ofFn s).foldl step x := by
  rw [carry_eq]
  have : List.ofFn (fun (k : Fin N) (x : X) => step x (s k)) = (List.ofFn s).map fun a x => step x a := by
    rw [List.map_ofFn]; rfl
  rw [this, List.foldl_map]

theorem stackStep_scan {L m : Nat} (eps : ℝ) (cross : Fin m → Int) (encoded : Fin m → Vec d) :
    ∀ {M : Nat} (s : Fin M → DecLayer d h e f) (cs : Fin M → Cache h e L) (x : Vec d),
    let y := carry (fun k x => (layerStep ex lg eps cross encoded (s k) (cs k) x).1) x
    stackStep ex lg eps cross encoded (List.ofFn fun k => (s k, cs k)) x =
      (y M, List.ofFn fun k => (s k, (layerStep ex lg eps cross encoded (s k) (cs k) (y k)).2)) := by
  intro M
  induction M with
  | zero => intro s cs x; rfl
  | succ M ih =>
    intro s cs x
    have hshift : ∀ i ≤ M, carry (fun k x => (layerStep ex lg eps cross encoded (s k) (cs k) x).1) x (i + 1) =
        carry (fun (k : Fin M) x => (layerStep ex lg eps cross encoded (s k.succ) (cs k.succ) x).1)
          (layerStep ex lg eps cross encoded (s 0) (cs 0) x).1 i := by
      intro i
      induction i with
      | zero => intro _; simp only [carry, Nat.succ_pos, dif_pos]; rfl
      | succ i ih' =>
        intro hi
        rw [carry, dif_pos (by omega), ih' (by omega)]
        conv_rhs => rw [carry, dif_pos (by omega)]
        rfl
    dsimp only
    rw [List.ofFn_succ, stackStep, ih (fun k => s k.succ) (fun k => cs k.succ), hshift M le_rfl, List.ofFn_succ]
    dsimp only
    have e2 : ∀ k : Fin M, carry (fun k x => (layerStep ex lg eps cross encoded (s k) (cs k) x).1) x k.succ.val =
        carry (fun (k : Fin M) x => (layerStep ex lg eps cross encoded (s k.succ) (cs k.succ) x).1)
          (layerStep ex lg eps cross encoded (s 0) (cs 0) x).1 k.val := fun k => by
      rw [Fin.val_succ, hshift k.val (by omega)]
    simp only [e2]
    rfl

theorem scanEncoder_eq (net : Scanned N M d h e f V) {n : Nat} (tokens : Row n) (mask : Option (Mask n n)) :
    scanEncoder ex lg net tokens mask = encoder ex lg net.unstack tokens mask := by
  funext i
  simp only [scanEncoder, encoder, Scanned.unstack]
  rw [carry_layers (encLayer ex lg net.eps mask)]

theorem scanDecoder_eq (net : Scanned N M d h e f V) {n m : Nat} (encoded : Fin m → Vec d) (tokens : Row n) (mask : Option (Mask n n))
    (cross : Option (Mask n m)) : scanDecoder ex lg net encoded tokens mask cross = decoder ex lg net.unstack encoded tokens mask cross := by
  funext i
  simp only [scanDecoder, decoder, Scanned.unstack]
  rw [carry_layers (decLayer ex lg net.eps mask cross encoded)]

/-- C100, scanning: with `scan_layers` the network computes the same logits as the loop over the layers whose parameters are the slices of
the stacked arrays. -/
theorem C100_scan (net : Scanned N M d h e f V) {n m : Nat} (b : Input n m) : scanApply ex lg net b = apply ex lg net.unstack b := by
  simp only [scanApply, apply, applyWith, scanDecoder_eq, scanEncoder_eq]

theorem feed_scan (net : Scanned N M d h e f V) {L m : Nat} (encTokens : Row m) (encoded : Fin m → Vec d) :
    ∀ (tokens : List Int) (cs : Fin M → Cache h e L), feed (scanStep ex lg net encTokens encoded) cs tokens =
      feed (step ex lg net.unstack encTokens encoded) (List.ofFn fun k => (net.dec.slice k, cs k)) tokens := by
  intro tokens
  induction tokens with
  | nil => intro cs; rfl
  | cons t ts ih =>
    intro cs
    have e := stackStep_scan (ex := ex) (lg := lg) net.eps (decodeCross encTokens) encoded net.dec.slice cs (Transformer.embed net.table t)
    dsimp only at e
    have h1 : step ex lg net.unstack encTokens encoded (List.ofFn fun k => (net.dec.slice k, cs k)) t =
        ((scanStep ex lg net encTokens encoded cs t).1,
          List.ofFn fun k => (net.dec.slice k, (scanStep ex lg net encTokens encoded cs t).2 k)) := by
      simp only [step, scanStep, Scanned.unstack, e]
    simp only [feed, h1, ih]

/-- C100, scanning and decoding: with the caches of all layers stacked, too. -/
theorem C100_scan_decode (net : Scanned N M d h e f V) {m : Nat} (L : Nat) (encTokens : Row m) (tokens : List Int) :
    scanPredict ex lg net L encTokens tokens = predict ex lg net.unstack L encTokens tokens := by
  simp only [scanPredict, predict, scanEncoder_eq, feed_scan]
  congr 1
  funext mask
  congr 1
  simp only [emptyCaches, Scanned.unstack, List.map_ofFn]
  rfl

/-! ### The T5 network -/

theorem encoder_flat (encRel decRel : Fin h → ℤ → ℝ) (h1 : ∀ l ∈ net.enc, l.rel = encRel) {n : Nat} (tokens : Row n)
    (mask : Option (Mask n n)) : encoder ex lg net tokens mask = Transformer.encoder ex lg (net.toT5 encRel decRel) tokens mask := by
  have key : ∀ (ls : List (EncLayer d h e f)), (∀ l ∈ ls, l.rel = encRel) → ∀ x : Fin n → Vec d,
      ls.foldl (encLayer ex lg net.eps mask) x = (ls.map EncLayer.flat).foldl (Transformer.encLayer ex lg (net.toT5 encRel decRel) mask) x := by
    intro ls
    induction ls with
    | nil => intro _ x; rfl
    | cons l ls ih =>
      intro hl x
      have e := encLayer_flat (ex := ex) (lg := lg) (net.toT5 encRel decRel) l (hl l (List.mem_cons_self ..)).symm mask x
      change encLayer ex lg net.eps mask x l = _ at e
      rw [List.foldl_cons, List.map_cons, List.foldl_cons, ih fun l' h' => hl l' (List.mem_cons_of_mem _ h'), e]
  funext i
  simp only [encoder, Transformer.encoder]
  rw [key net.enc h1]
  rfl

/-- C100, the same function as T5: if all encoder layers have the same bias table and all decoder layers have the same bias table, the
network is the T5 network with these tables and the kernels reshaped to two axes. -/
theorem C100_t5 (encRel decRel : Fin h → ℤ → ℝ) (h1 : ∀ l ∈ net.enc, l.rel = encRel) (h2 : ∀ l ∈ net.dec, l.rel = decRel) {n m : Nat}
    (b : Input n m) : apply ex lg net b = Transformer.apply ex lg (net.toT5 encRel decRel) b := by
  have key : ∀ (mask : Option (Mask n n)) (cross : Option (Mask n m)) (encoded : Fin m → Vec d) (ls : List (DecLayer d h e f)),
      (∀ l ∈ ls, l.rel = decRel) → ∀ x : Fin n → Vec d,
      ls.foldl (decLayer ex lg net.eps mask cross encoded) x =
        (ls.map DecLayer.flat).foldl (Transformer.decLayer ex lg (net.toT5 encRel decRel) mask cross encoded) x := by
    intro mask cross encoded ls
    induction ls with
    | nil => intro _ x; rfl
    | cons l ls ih =>
      intro hl x
      have e := decLayer_flat (ex := ex) (lg := lg) (net.toT5 encRel decRel) l (hl l (List.mem_cons_self ..)).symm mask cross encoded x
      change decLayer ex lg net.eps mask cross encoded x l = _ at e
      rw [List.foldl_cons, List.map_cons, List.foldl_cons, ih fun l' h' => hl l' (List.mem_cons_of_mem _ h'), e]
  have hdec : ∀ (encoded : Fin m → Vec d) (tokens : Row n) (mask : Option (Mask n n)) (cross : Option (Mask n m)),
      decoder ex lg net encoded tokens mask cross = Transformer.decoder ex lg (net.toT5 encRel decRel) encoded tokens mask cross := by
    intro encoded tokens mask cross
    funext i
    simp only [decoder, Transformer.decoder]
    rw [key mask cross encoded net.dec h2]
    rfl
  simp only [apply, applyWith, Transformer.apply, Transformer.encode, encoder_flat encRel decRel h1, hdec]
  cases makeEncoderMask b.encTokens b.encSeg <;> rfl

theorem stackStep_flat (encRel decRel : Fin h → ℤ → ℝ) {L m : Nat} (cross : Fin m → Int) (encoded : Fin m → Vec d) :
    ∀ (cs : List (DecLayer d h e f × Cache h e L)), (∀ c ∈ cs, c.1.rel = decRel) → ∀ x : Vec d,
      T5Decode.stackStep ex lg (net.toT5 encRel decRel) cross encoded (cs.map fun c => (c.1.flat, c.2)) x =
        ((stackStep ex lg net.eps cross encoded cs x).1, (stackStep ex lg net.eps cross encoded cs x).2.map fun c => (c.1.flat, c.2)) ∧
      ∀ c ∈ (stackStep ex lg net.eps cross encoded cs x).2, c.1.rel = decRel := by
  intro cs
  induction cs with
  | nil => intro _ x; exact ⟨rfl, by simp [stackStep]⟩
  | cons c cs ih =>
    intro hc x
    have e := layerStep_flat (ex := ex) (lg := lg) (net.toT5 encRel decRel) c.1 (hc c (List.mem_cons_self ..)).symm cross encoded c.2 x
    obtain ⟨i1, i2⟩ := ih (fun c' h' => hc c' (List.mem_cons_of_mem _ h')) (layerStep ex lg net.eps cross encoded c.1 c.2 x).1
    change layerStep ex lg net.eps cross encoded c.1 c.2 x = _ at e
    constructor
    · simp only [List.map_cons, T5Decode.stackStep, stackStep, ← e, i1]
    · intro c' hc'
      simp only [stackStep, List.mem_cons] at hc'
      rcases hc' with rfl | hc'
      · exact hc c (List.mem_cons_self ..)
      · exact i2 c' hc'

/-- C100: decoding token by token is that of the T5 network as well. -/
theorem C100_t5_decode (encRel decRel : Fin h → ℤ → ℝ) (h1 : ∀ l ∈ net.enc, l.rel = encRel) (h2 : ∀ l ∈ net.dec, l.rel = decRel)
    {m : Nat} (L : Nat) (encTokens : Row m) (tokens : List Int) :
    predict ex lg net L encTokens tokens = T5Decode.predict ex lg (net.toT5 encRel decRel) L encTokens tokens := by
  have key : ∀ (encoded : Fin m → Vec d) (tokens : List Int) (cs : List (DecLayer d h e f × Cache h e L)), (∀ c ∈ cs, c.1.rel = decRel) →
      feed (step ex lg net encTokens encoded) cs tokens =
        feed (T5Decode.step ex lg (net.toT5 encRel decRel) encTokens encoded) (cs.map fun c => (c.1.flat, c.2)) tokens := by
    intro encoded tokens
    induction tokens with
    | nil => intro cs _; rfl
    | cons t ts ih =>
      intro cs hc
      obtain ⟨i1, i2⟩ := stackStep_flat (ex := ex) (lg := lg) (net := net) encRel decRel (decodeCross encTokens) encoded cs hc
        (Transformer.embed net.table t)
      have e : T5Decode.step ex lg (net.toT5 encRel decRel) encTokens encoded (cs.map fun c => (c.1.flat, c.2)) t =
          ((step ex lg net encTokens encoded cs t).1, (step ex lg net encTokens encoded cs t).2.map fun c => (c.1.flat, c.2)) := by
        simp only [T5Decode.step, step]
        change (_, (T5Decode.stackStep ex lg (net.toT5 encRel decRel) (decodeCross encTokens) encoded _ (Transformer.embed net.table t)).2) = _
        rw [show (makeAttentionMask (fun _ => 1) (fun i => ofBool (encTokens i > 0)) multiply : Mask 1 m) 0 = decodeCross encTokens from rfl]
        change (Transformer.toLogits _ (T5Decode.stackStep ex lg (net.toT5 encRel decRel) (decodeCross encTokens) encoded _
          (Transformer.embed net.table t)).1, _) = _
        rw [i1]
        rfl
      simp only [feed, e]
      rw [ih (step ex lg net encTokens encoded cs t).2 i2]
  simp only [predict, T5Decode.predict, encoder_flat encRel decRel h1]
  congr 1
  funext mask
  rw [key _ tokens (emptyCaches net L) (by
    intro c hc
    obtain ⟨l, hl, rfl⟩ := List.mem_map.1 hc
    exact h2 l hl)]
  congr 1
  simp only [emptyCaches, T5Decode.emptyCaches, Net.toT5, List.map_map]
  rfl

/-! ### Packing -/

theorem enc_sim (hex : Underflows ex θ) (hθ : 0 < θ) (ht : Tame net θ B) {n1 n2 : Nat} {δ : ℤ} {R : Fin n1 → Fin n2 → Prop}
    {M1 : Mask n1 n1} {M2 : Mask n2 n2} (hc : Corr δ R M1 M2) :
    ∀ (ls : List (EncLayer d h e f)), (∀ l ∈ ls, l ∈ net.enc) → ∀ (x1 : Fin n1 → Vec d) (x2 : Fin n2 → Vec d),
      (∀ i j, R i j → x1 i = x2 j) → ∀ i j, R i j →
      ls.foldl (encLayer ex lg net.eps (some M1)) x1 i = ls.foldl (encLayer ex lg net.eps (some M2)) x2 j := by
  intro ls
  induction ls with
  | nil => intro _ x1 x2 hx; exact hx
  | cons l ls ih =>
    intro hl x1 x2 hx
    rw [List.foldl_cons, List.foldl_cons]
    refine ih (fun l' h' => hl l' (List.mem_cons_of_mem _ h')) _ _ ?_
    intro i j hij
    have e1 := encLayer_flat (ex := ex) (lg := lg) (encView net l) l rfl (some M1) x1
    have e2 := encLayer_flat (ex := ex) (lg := lg) (encView net l) l rfl (some M2) x2
    change encLayer ex lg net.eps (some M1) x1 l = _ at e1
    change encLayer ex lg net.eps (some M2) x2 l = _ at e2
    rw [e1, e2]
    exact Transformer.enc_sim (lg := lg) hex hθ (encView_tame ht l (hl l (List.mem_cons_self ..))) hc [l.flat] (fun _ h' => h') x1 x2 hx i j hij

theorem dec_sim (hex : Underflows ex θ) (hθ : 0 < θ) (ht : Tame net θ B) {n1 n2 m1 m2 : Nat} {δ : ℤ} {R : Fin n1 → Fin n2 → Prop}
    {M1 : Mask n1 n1} {M2 : Mask n2 n2} (hc : Corr δ R M1 M2) {C1 : Mask n1 m1} {C2 : Mask n2 m2} {δe : ℤ} {Q : Fin m1 → Fin m2 → Prop}
    (hQ : ∀ i j, Q i j → (j.val : ℤ) = i.val + δe) (hC : ∀ i j, R i j → ∃ k, C1 i k > 0)
    (hC1 : ∀ i j, R i j → ∀ k, C1 i k > 0 → ∃ l, Q k l ∧ C2 j l > 0) (hC2 : ∀ i j, R i j → ∀ l, C2 j l > 0 → ∃ k, Q k l ∧ C1 i k > 0)
    (e1 : Fin m1 → Vec d) (e2 : Fin m2 → Vec d)
    (hee : ∀ k l, Q k l → Transformer.layerNorm net.eps net.encNorm (e1 k) = Transformer.layerNorm net.eps net.encNorm (e2 l)) :
    ∀ (ls : List (DecLayer d h e f)), (∀ l ∈ ls, l ∈ net.dec) → ∀ (x1 : Fin n1 → Vec d) (x2 : Fin n2 → Vec d),
      (∀ i j, R i j → x1 i = x2 j) → ∀ i j, R i j →
      ls.foldl (decLayer ex lg net.eps (some M1) (some C1) (fun k => Transformer.layerNorm net.eps net.encNorm (e1 k))) x1 i =
        ls.foldl (decLayer ex lg net.eps (some M2) (some C2) (fun k => Transformer.layerNorm net.eps net.encNorm (e2 k))) x2 j := by
  intro ls
  induction ls with
  | nil => intro _ x1 x2 hx; exact hx
  | cons l ls ih =>
    intro hl x1 x2 hx
    rw [List.foldl_cons, List.foldl_cons]
    refine ih (fun l' h' => hl l' (List.mem_cons_of_mem _ h')) _ _ ?_
    intro i j hij
    have f1 := decLayer_flat (ex := ex) (lg := lg) (decView net l) l rfl (some M1) (some C1)
      (fun k => Transformer.layerNorm net.eps net.encNorm (e1 k)) x1
    have f2 := decLayer_flat (ex := ex) (lg := lg) (decView net l) l rfl (some M2) (some C2)
      (fun k => Transformer.layerNorm net.eps net.encNorm (e2 k)) x2
    change decLayer ex lg net.eps (some M1) (some C1) _ x1 l = _ at f1
    change decLayer ex lg net.eps (some M2) (some C2) _ x2 l = _ at f2
    rw [f1, f2]
    exact Transformer.dec_sim (lg := lg) hex hθ (decView_tame ht l (hl l (List.mem_cons_self ..))) hc hQ hC hC1 hC2 e1 e2 hee [l.flat]
      (fun _ h' => h') x1 x2 hx i j hij

theorem apply_some {n m : Nat} (b : Input n m) (hs : SegsOk b) : ∃ y, apply ex lg net b = some y := by
  obtain ⟨A1, hA1, _⟩ := Transformer.encMask b.encTokens b.encSeg
  obtain ⟨M1, hM1, _⟩ := Transformer.decMask b.decTargets b.decSeg
  obtain ⟨C1, hC1, _⟩ := Transformer.crossMask b.decTargets b.encTokens b.decSeg b.encSeg hs
  exact ⟨decoder ex lg net (encoder ex lg net b.encTokens (some A1)) b.decInputs (some M1) (some C1),
    by simp only [apply, applyWith, hA1, hM1, hC1, Option.map_some, Option.bind_some]⟩

/-- C100, packing: as for the T5 network (C93), the logits of an example depend only on the example, and at each position only on the
targets up to it. -/
theorem C100_same_logits (hex : Underflows ex θ) (hθ : 0 < θ) (ht : Tame net θ B) {n1 m1 n2 m2 : Nat} (b1 : Input n1 m1) (b2 : Input n2 m2)
    (hs1 : SegsOk b1) (hs2 : SegsOk b2) (δ δe : ℤ) (s1 s2 : Int) (i : Fin n1) (j : Fin n2) (hij : (j.val : ℤ) = i.val + δ)
    (hd : SameText (fun p => p ≤ i.val) δ s1 s2 b1.decSeg b1.decTargets b1.decInputs b2.decSeg b2.decTargets b2.decInputs)
    (he : SameText Everywhere δe s1 s2 b1.encSeg b1.encTokens b1.encTokens b2.encSeg b2.encTokens b2.encTokens)
    (hi : InSeg b1.decSeg s1 i) (hti : b1.decTargets i > 0) (hne : ∃ k, InSeg b1.encSeg s1 k ∧ b1.encTokens k > 0) :
    ∃ y1 y2, apply ex lg net b1 = some y1 ∧ apply ex lg net b2 = some y2 ∧ y1 i = y2 j := by
  obtain ⟨A1, hA1, sA1⟩ := Transformer.encMask b1.encTokens b1.encSeg
  obtain ⟨A2, hA2, sA2⟩ := Transformer.encMask b2.encTokens b2.encSeg
  obtain ⟨M1, hM1, sM1⟩ := Transformer.decMask b1.decTargets b1.decSeg
  obtain ⟨M2, hM2, sM2⟩ := Transformer.decMask b2.decTargets b2.decSeg
  obtain ⟨C1, hC1, sC1⟩ := Transformer.crossMask b1.decTargets b1.encTokens b1.decSeg b1.encSeg hs1
  obtain ⟨C2, hC2, sC2⟩ := Transformer.crossMask b2.decTargets b2.encTokens b2.decSeg b2.encSeg hs2
  refine ⟨decoder ex lg net (encoder ex lg net b1.encTokens (some A1)) b1.decInputs (some M1) (some C1),
    decoder ex lg net (encoder ex lg net b2.encTokens (some A2)) b2.decInputs (some M2) (some C2),
    by simp only [apply, applyWith, hA1, hM1, hC1, Option.map_some, Option.bind_some],
    by simp only [apply, applyWith, hA2, hM2, hC2, Option.map_some, Option.bind_some], ?_⟩
  -- corresponding positions
  let Q : Fin m1 → Fin m2 → Prop := fun i j => (j.val : ℤ) = i.val + δe ∧ InSeg b1.encSeg s1 i ∧ b1.encTokens i > 0 ∧
    InSeg b2.encSeg s2 j ∧ b2.encTokens j > 0
  let R : Fin n1 → Fin n2 → Prop := fun p q => (q.val : ℤ) = p.val + δ ∧ InSeg b1.decSeg s1 p ∧ b1.decTargets p > 0 ∧
    InSeg b2.decSeg s2 q ∧ b2.decTargets q > 0 ∧ p.val ≤ i.val
  have qf : ∀ i, InSeg b1.encSeg s1 i → b1.encTokens i > 0 → ∃ j, Q i j := fun i a b => by
    obtain ⟨j, h1, h2, h3, _⟩ := he.fwd i trivial a b; exact ⟨j, h1, a, b, h2, h3⟩
  have qb : ∀ j, InSeg b2.encSeg s2 j → b2.encTokens j > 0 → ∃ i, Q i j := fun j a b => by
    obtain ⟨i, h1, h2, h3⟩ := he.bwd j trivial a b; exact ⟨i, h1, h2, h3, a, b⟩
  have rf : ∀ p, p.val ≤ i.val → InSeg b1.decSeg s1 p → b1.decTargets p > 0 → ∃ q, R p q := fun p hp a b => by
    obtain ⟨j, h1, h2, h3, _⟩ := hd.fwd p (by omega) a b; exact ⟨j, h1, a, b, h2, h3, hp⟩
  have rb : ∀ q : Fin n2, (q.val : ℤ) ≤ i.val + δ → InSeg b2.decSeg s2 q → b2.decTargets q > 0 → ∃ p, R p q := fun q hq a b => by
    obtain ⟨p, h1, h2, h3⟩ := hd.bwd q (by omega) a b; exact ⟨p, h1, h2, h3, a, b, by omega⟩
  have cQ : Corr δe Q A1 A2 := by
    refine ⟨fun i j h => h.1, fun i j h => ⟨i, (sA1 i i).2 ⟨h.2.2.1, h.2.2.1, fun _ _ => rfl⟩⟩, ?_, ?_⟩
    · rintro i j ⟨h1, h2, h3, h4, h5⟩ k hk
      obtain ⟨_, hk2, hk3⟩ := (sA1 i k).1 hk
      obtain ⟨l, hl⟩ := qf k (fun r hr => by rw [← hk3 r hr]; exact h2 r hr) hk2
      exact ⟨l, hl, (sA2 j l).2 ⟨h5, hl.2.2.2.2, fun r hr => by rw [h4 r hr, hl.2.2.2.1 r hr]⟩⟩
    · rintro i j ⟨h1, h2, h3, h4, h5⟩ l hl
      obtain ⟨_, hl2, hl3⟩ := (sA2 j l).1 hl
      obtain ⟨k, hk⟩ := qb l (fun r hr => by rw [← hl3 r hr]; exact h4 r hr) hl2
      exact ⟨k, hk, (sA1 i k).2 ⟨h3, hk.2.2.1, fun r hr => by rw [h2 r hr, hk.2.1 r hr]⟩⟩
  have cR : Corr δ R M1 M2 := by
    refine ⟨fun i j h => h.1, fun i j h => ⟨i, (sM1 i i).2 ⟨h.2.2.1, h.2.2.1, le_rfl, fun _ _ => rfl⟩⟩, ?_, ?_⟩
    · rintro p q ⟨h1, h2, h3, h4, h5, h6⟩ k hk
      obtain ⟨_, hk2, hki, hk3⟩ := (sM1 p k).1 hk
      rw [Fin.le_def] at hki
      obtain ⟨l, hl⟩ := rf k (by omega) (fun r hr => by rw [← hk3 r hr]; exact h2 r hr) hk2
      refine ⟨l, hl, (sM2 q l).2 ⟨h5, hl.2.2.2.2.1, ?_, fun r hr => by rw [h4 r hr, hl.2.2.2.1 r hr]⟩⟩
      have := hl.1; rw [Fin.le_def]; omega
    · rintro p q ⟨h1, h2, h3, h4, h5, h6⟩ l hl
      obtain ⟨_, hl2, hli, hl3⟩ := (sM2 q l).1 hl
      rw [Fin.le_def] at hli
      obtain ⟨k, hk⟩ := rb l (by omega) (fun r hr => by rw [← hl3 r hr]; exact h4 r hr) hl2
      refine ⟨k, hk, (sM1 p k).2 ⟨h3, hk.2.2.1, ?_, fun r hr => by rw [h2 r hr, hk.2.1 r hr]⟩⟩
      have := hk.1; rw [Fin.le_def]; omega
  have tokQ : ∀ i j, Q i j → b1.encTokens i = b2.encTokens j := by
    rintro i j ⟨h1, h2, h3, _⟩
    obtain ⟨j', h1', _, _, h3'⟩ := he.fwd i trivial h2 h3
    have : j = j' := by ext; omega
    rw [this, h3']
  have inR : ∀ p q, R p q → b1.decInputs p = b2.decInputs q := by
    rintro p q ⟨h1, h2, h3, h4, h5, h6⟩
    obtain ⟨j', h1', _, _, h4'⟩ := hd.fwd p (by omega) h2 h3
    have : q = j' := by ext; omega
    rw [this, h4']
  have hR : R i j := by
    obtain ⟨j', hj'⟩ := rf i le_rfl hi hti
    have : j = j' := by have := hj'.1; ext; omega
    rw [this]; exact hj'
  simp only [decoder]
  congr 1
  unfold encoder
  refine dec_sim hex hθ ht cR (Q := Q) (δe := δe) (fun i j h => h.1) ?_ ?_ ?_ _ _ ?_ net.dec (fun _ h => h) _ _ ?_ i j hR
  · rintro i j ⟨_, h2, h3, _⟩
    obtain ⟨k, hk, hk'⟩ := hne
    exact ⟨k, (sC1 i k).2 ⟨h3, hk', fun s t hs ht' => by rw [h2 s hs, hk t ht']⟩⟩
  · rintro i j ⟨h1, h2, h3, h4, h5, _⟩ k hk
    obtain ⟨_, hk2, hk3⟩ := (sC1 i k).1 hk
    have hkseg : InSeg b1.encSeg s1 k := by
      intro t ht'
      obtain ⟨s, hs⟩ := Option.isSome_iff_exists.1 (hs1 (by rw [ht']; rfl))
      rw [← hk3 s t hs ht']; exact h2 s hs
    obtain ⟨l, hl⟩ := qf k hkseg hk2
    exact ⟨l, hl, (sC2 j l).2 ⟨h5, hl.2.2.2.2, fun s t hs ht' => by rw [h4 s hs, hl.2.2.2.1 t ht']⟩⟩
  · rintro i j ⟨h1, h2, h3, h4, h5, _⟩ l hl
    obtain ⟨_, hl2, hl3⟩ := (sC2 j l).1 hl
    have hlseg : InSeg b2.encSeg s2 l := by
      intro t ht'
      obtain ⟨s, hs⟩ := Option.isSome_iff_exists.1 (hs2 (by rw [ht']; rfl))
      rw [← hl3 s t hs ht']; exact h4 s hs
    obtain ⟨k, hk⟩ := qb l hlseg hl2
    exact ⟨k, hk, (sC1 i k).2 ⟨h3, hk.2.2.1, fun s t hs ht' => by rw [h2 s hs, hk.2.1 t ht']⟩⟩
  · intro k l hkl
    congr 1
    exact enc_sim hex hθ ht cQ net.enc (fun _ h => h) _ _ (fun i j hij => by rw [tokQ i j hij]) k l hkl
  · intro i j hij
    rw [inR i j hij]

/-- C100, packing: an example alone in its rows and the same example as segment s of packed rows have the same logits. -/
theorem C100_packed (hex : Underflows ex θ) (hθ : 0 < θ) (ht : Tame net θ B) {n0 m0 n m : Nat} (alone : Input n0 m0) (packed : Input n m)
    (h1 : alone.encSeg = none) (h2 : alone.decSeg = none) (es : Row m) (ds : Row n) (h3 : packed.encSeg = some es)
    (h4 : packed.decSeg = some ds) (s : Int) (a c : Nat)
    (hds : ∀ j, ds j = s ↔ a ≤ j.val ∧ j.val < a + n0) (hes : ∀ j, es j = s ↔ c ≤ j.val ∧ j.val < c + m0)
    (hn : a + n0 ≤ n) (hm : c + m0 ≤ m)
    (htok : ∀ (i : Fin n0) (j : Fin n), j.val = a + i.val → packed.decTargets j = alone.decTargets i ∧ packed.decInputs j = alone.decInputs i)
    (henc : ∀ (i : Fin m0) (j : Fin m), j.val = c + i.val → packed.encTokens j = alone.encTokens i)
    (hne : ∃ k, alone.encTokens k > 0) :
    ∃ y1 y2, apply ex lg net alone = some y1 ∧ apply ex lg net packed = some y2 ∧
      ∀ (i : Fin n0) (j : Fin n), j.val = a + i.val → alone.decTargets i > 0 → y1 i = y2 j := by
  have inalone : ∀ i, InSeg alone.decSeg 0 i := fun i r hr => by rw [h2] at hr; cases hr
  have inalone' : ∀ i, InSeg alone.encSeg 0 i := fun i r hr => by rw [h1] at hr; cases hr
  have o1 : SegsOk alone := by unfold SegsOk; rw [h1]; simp
  have o2 : SegsOk packed := by unfold SegsOk; rw [h4]; simp
  have he : SameText Everywhere c 0 s alone.encSeg alone.encTokens alone.encTokens packed.encSeg packed.encTokens packed.encTokens := by
    constructor
    · intro i _ _ hi
      have hi' := i.isLt
      refine ⟨⟨c + i.val, by omega⟩, by push_cast; omega, ?_, by rw [henc i ⟨c + i.val, by omega⟩ rfl]; exact hi, henc i ⟨c + i.val, by omega⟩ rfl⟩
      intro r hr
      rw [h3] at hr; cases hr
      exact (hes _).2 ⟨by simp, by simp⟩
    · intro j _ hj htj
      obtain ⟨hj1, hj2⟩ := (hes j).1 (hj es h3)
      refine ⟨⟨j.val - c, by omega⟩, by push_cast; omega, inalone' _, ?_⟩
      rw [← henc ⟨j.val - c, by omega⟩ j (by simp; omega)]; exact htj
  have hd : ∀ W, SameText W a 0 s alone.decSeg alone.decTargets alone.decInputs packed.decSeg packed.decTargets packed.decInputs := by
    intro W
    constructor
    · intro i _ _ hi
      have hi' := i.isLt
      refine ⟨⟨a + i.val, by omega⟩, by push_cast; omega, ?_, by rw [(htok i ⟨a + i.val, by omega⟩ rfl).1]; exact hi, (htok i ⟨a + i.val, by omega⟩ rfl).2⟩
      intro r hr
      rw [h4] at hr; cases hr
      exact (hds _).2 ⟨by simp, by simp⟩
    · intro j _ hj htj
      obtain ⟨hj1, hj2⟩ := (hds j).1 (hj ds h4)
      refine ⟨⟨j.val - a, by omega⟩, by push_cast; omega, inalone _, ?_⟩
      rw [← (htok ⟨j.val - a, by omega⟩ j (by simp; omega)).1]; exact htj
  obtain ⟨k, hk⟩ := hne
  have key : ∀ (i : Fin n0) (j : Fin n), j.val = a + i.val → alone.decTargets i > 0 →
      ∃ y1 y2, apply ex lg net alone = some y1 ∧ apply ex lg net packed = some y2 ∧ y1 i = y2 j := fun i j hij hti =>
    C100_same_logits hex hθ ht alone packed o1 o2 a c 0 s i j (by omega) (hd _) he (inalone i) hti ⟨k, inalone' k, hk⟩
  obtain ⟨z1, hz1⟩ := apply_some (ex := ex) (lg := lg) (net := net) alone o1
  obtain ⟨z2, hz2⟩ := apply_some (ex := ex) (lg := lg) (net := net) packed o2
  refine ⟨z1, z2, hz1, hz2, fun i j hij hti => ?_⟩
  obtain ⟨y1, y2, e1, e2, hy⟩ := key i j hij hti
  rw [hz1] at e1; rw [hz2] at e2
  cases e1; cases e2
  exact hy

/-! ### Decoding -/

noncomputable def cachesAt (ex : ℝ → ℝ) (lg : ℕ → ℝ) (net : Net d h e f V) {n m : Nat} (L : Nat) (mask : Mask n n)
    (cross : Mask n m) (encoded : Fin m → Vec d) : List (DecLayer d h e f) → (Fin n → Vec d) → Nat → List (DecLayer d h e f × Cache h e L)
  | [], _, _ => []
  | l :: ls, x, i => (l, T5Decode.cacheOf L net.eps l.self.flat l.preSelf x i) ::
      cachesAt ex lg net L mask cross encoded ls (decLayer ex lg net.eps (some mask) (some cross) encoded x l) i

theorem cachesAt_zero {n m : Nat} (L : Nat) (mask : Mask n n) (cross : Mask n m) (encoded : Fin m → Vec d) (ls : List (DecLayer d h e f)) :
    ∀ x : Fin n → Vec d, cachesAt ex lg net L mask cross encoded ls x 0 = ls.map fun l => (l, Cache.init h e L) := by
  induction ls with
  | nil => intro x; rfl
  | cons l ls ih =>
    intro x
    simp only [cachesAt, List.map_cons, ih]
    simp [T5Decode.cacheOf, Cache.init]

theorem stackStep_spec (hex : Underflows ex θ) (hθ : 0 < θ) (ht : Tame net θ B) {n L m : Nat} (hnL : n ≤ L) (mask : Mask n n)
    (cross : Mask n m) (row : Fin m → Int) (encoded : Fin m → Vec d) (i : Fin n) (hmask : ∀ j, mask i j > 0 ↔ j.val ≤ i.val)
    (hcross : cross i = row) (ls : List (DecLayer d h e f)) : (∀ l ∈ ls, l ∈ net.dec) → ∀ x : Fin n → Vec d,
    stackStep ex lg net.eps row encoded (cachesAt ex lg net L mask cross encoded ls x i.val) (x i) =
      (ls.foldl (decLayer ex lg net.eps (some mask) (some cross) encoded) x i,
        cachesAt ex lg net L mask cross encoded ls x (i.val + 1)) := by
  induction ls with
  | nil => intro _ x; rfl
  | cons l ls ih =>
    intro hl x
    have e1 := T5Decode.layerStep_spec (lg := lg) hex hθ (decView_tame ht l (hl l (List.mem_cons_self ..))) hnL l.flat
      (List.mem_singleton.2 rfl) mask cross row encoded x i hmask hcross
    rw [← layerStep_flat (decView net l) l rfl, ← decLayer_flat (decView net l) l rfl] at e1
    change layerStep ex lg net.eps row encoded l (T5Decode.cacheOf L net.eps l.self.flat l.preSelf x i.val) (x i) =
      (decLayer ex lg net.eps (some mask) (some cross) encoded x l i, T5Decode.cacheOf L net.eps l.self.flat l.preSelf x (i.val + 1)) at e1
    simp only [cachesAt, stackStep, e1]
    rw [ih fun l' h' => hl l' (List.mem_cons_of_mem _ h')]
    rfl

/-- C100, decoding: with caches of at least the row's length, the logits after feeding the decoder inputs one by one are those that the model
computes for the whole row, up to the first padding target. -/
theorem C100_decode (hex : Underflows ex θ) (hθ : 0 < θ) (ht : Tame net θ B) {n m : Nat} (b : Input n m) (h1 : b.encSeg = none)
    (h2 : b.decSeg = none) (L : Nat) (hL : n ≤ L) :
    ∃ y outs, apply ex lg net b = some y ∧ predict ex lg net L b.encTokens (List.ofFn b.decInputs) = some outs ∧
      ∀ t : Fin n, (∀ j ≤ t, b.decTargets j > 0) → outs[t.val]? = some (y t) := by
  obtain ⟨A, hA, -⟩ := Transformer.encMask b.encTokens b.encSeg
  obtain ⟨M, hM, hspec⟩ := mask_spec b.decTargets none
  let cross : Mask n m := makeAttentionMask (fun i => ofBool (b.decTargets i > 0)) (fun i => ofBool (b.encTokens i > 0)) multiply
  have hX : makeEncoderDecoderMask b.decTargets b.encTokens none none = some cross := rfl
  refine ⟨decoder ex lg net (encoder ex lg net b.encTokens (some A)) b.decInputs (some M) (some cross),
    feed (step ex lg net b.encTokens (encoder ex lg net b.encTokens (some A))) (emptyCaches net L) (List.ofFn b.decInputs), ?_, ?_, ?_⟩
  · rw [h1] at hA
    simp only [apply, applyWith, hA, h1, h2, hM, hX, Option.map_some, Option.bind_some]
  · rw [h1] at hA
    simp only [predict, hA, Option.map_some]
  intro t hpos
  generalize encoder ex lg net b.encTokens (some A) = encoded
  have hrow : ∀ i : Fin n, i ≤ t → ∀ j, M i j > 0 ↔ j.val ≤ i.val := by
    intro i hi j
    rw [hspec]
    constructor
    · rintro ⟨h | ⟨c, hc, _⟩, _⟩
      · exact h
      · cases hc
    · exact fun h => ⟨Or.inl h, hpos i hi, hpos j (show j.val ≤ t.val from le_trans h hi)⟩
  have hc : ∀ i : Fin n, i ≤ t → cross i = makeAttentionMask (fun _ => 1 : Row 1) (fun i => ofBool (b.encTokens i > 0)) multiply 0 := by
    intro i hi
    funext j
    have := hpos i hi
    simp [cross, makeAttentionMask, multiply, ofBool, this]
  have e := feed_spec (step ex lg net (L := L) b.encTokens encoded)
    (fun i => cachesAt ex lg net L M cross encoded net.dec (fun j => Transformer.embed net.table (b.decInputs j)) i) b.decInputs
    (decoder ex lg net encoded b.decInputs (some M) (some cross)) 0 t.val t.isLt (fun i _ hi => ?_) t.val 0 (by omega) (by omega)
  · rw [cachesAt_zero] at e
    exact e
  · have e := stackStep_spec (lg := lg) hex hθ ht hL M cross _ encoded i (hrow i hi) (hc i hi) net.dec (fun _ h => h)
      (fun j => Transformer.embed net.table (b.decInputs j))
    simp only [step, decodeCross]
    rw [e]
    rfl

/-- C100, scores: the log-probability returned with a sampled sequence is its score under the network's logits for the whole row. -/
theorem C100_score (hex : Underflows ex θ) (hθ : 0 < θ) (ht : Tame net θ B) {m n : Nat} (enc : Nat → Row m)
    (pick : Nat → Nat → Vec V → Fin V) (eos : Int) (he : eos ≠ 0) (prompts : List (Row n × Option Nat)) (fuel : Nat) (hf : max 1 n ≤ fuel)
    (b : Nat) (r : Row n × Option Nat) (hb : prompts[b]? = some r) (p : Nat) (hp : Sampling.Spec.RightPadded (List.ofFn r.1) p)
    (hpos : ∀ j : Fin n, 1 ≤ j.val → j.val ≤ p → r.1 j > 0) (hlim : r.2 ≠ some 0 ∨ 1 ≤ p) :
    ∃ out lp logits, (predictBatch ex lg net enc pick eos fuel prompts)[b]? = some (out, lp) ∧ out.length = n ∧
      (∀ j : Fin n, 1 ≤ j.val → j.val ≤ p → out.getD (j.val - 1) 0 = r.1 j) ∧
      apply ex lg net ⟨enc b, Score.Spec.shifted n 0 out, Score.Spec.asRow n out, none, none⟩ = some logits ∧
      (Score.Spec.NoPadding p (Sampling.maxDecodeLen ⟨List.ofFn r.1, none, r.2⟩) eos out →
        lp = Score.scoreRow logits (Score.Spec.asRow n out) (Score.Spec.weightsFrom n p out)) := by
  have hlen : (List.ofFn r.1).length = n := List.length_ofFn
  have hpn : p < n := hlen ▸ hp.lt
  have him : 0 < Sampling.maxDecodeLen ⟨List.ofFn r.1, none, r.2⟩ := by
    have hle := Sampling.le_maxLen ⟨List.ofFn r.1, none, r.2⟩ hp
    by_cases h1 : 1 ≤ p
    · omega
    · have h2 := hlim.resolve_right h1
      unfold Sampling.maxDecodeLen
      cases h3 : r.2 with
      | none => simp only [hlen]; omega
      | some k =>
        have : k ≠ 0 := fun e => h2 (by rw [h3, e])
        simp only [hlen]
        omega
  let ref : Row n → Row n → Fin n → Fin V → ℝ := fun inputs targets => (apply ex lg net ⟨enc b, inputs, targets, none, none⟩).getD fun _ _ => 0
  obtain ⟨A, hA, -⟩ := Transformer.encMask (enc b) none
  obtain ⟨out, lp, hout, hl, hpr, -, hsc⟩ := Score.score_generic
    (fun b => step ex lg net (enc b) (encoder ex lg net (enc b) (makeEncoderMask (enc b) none))) pick eos he
    (prompts.map fun r => ⟨List.ofFn r.1, none, r.2⟩) (fun _ => emptyCaches net n) n
    (by intro x hx; obtain ⟨y, _, rfl⟩ := List.mem_map.1 hx; simp) fuel hf b ⟨List.ofFn r.1, none, r.2⟩
    (by rw [List.getElem?_map, hb]; rfl) hlen p hp
    (fun j h1 h2 => by rw [Score.getD_ofFn r.1 ⟨j, by omega⟩]; exact hpos _ h1 h2) 0 rfl (Nat.zero_le _) him 0 rfl ref
    (by
      intro inputs targets t _ _ _ _ ht'
      obtain ⟨y, outs, h1, h2, h3⟩ := C100_decode (lg := lg) hex hθ ht ⟨enc b, inputs, targets, none, none⟩ rfl rfl n le_rfl
      simp only [predict, hA, Option.map_some, Option.some.injEq] at h2
      simp only [ref, h1, Option.getD_some, List.drop_zero, Nat.sub_zero, hA]
      rw [h2]
      exact h3 t ht')
  obtain ⟨logits, hlg⟩ := apply_some (ex := ex) (lg := lg) (net := net)
    (⟨enc b, Score.Spec.shifted n 0 out, Score.Spec.asRow n out, none, none⟩ : Input n m) (by simp [SegsOk])
  refine ⟨out, lp, logits, hout, hl, fun j h1 h2 => ?_, hlg, fun hnp => ?_⟩
  · rw [hpr (j.val - 1) (by omega)]
    have : j.val - 1 + 1 = j.val := by omega
    rw [this, Score.getD_ofFn]
  · rw [hsc hnp]
    simp only [ref, hlg, Option.getD_some]

/-! ### Every network can be stacked -/

namespace Spec

/-- All layers of a stack use the same activation functions, those of `cfg.mlp_activations`. -/
def SameActivations (mlps : List (Mlp d f)) (acts : (ℝ → ℝ) × List (ℝ → ℝ)) : Prop :=
  ∀ p ∈ mlps, p.first.1 = acts.1 ∧ p.others.map Prod.fst = acts.2

end Spec

theorem exists_mlpStack (ls : Fin N → Mlp d f) (acts : (ℝ → ℝ) × List (ℝ → ℝ))
    (h : ∀ i, (ls i).first.1 = acts.1 ∧ (ls i).others.map Prod.fst = acts.2) : ∃ s : MlpStack N d f, ∀ i, s.slice i = ls i := by
  refine ⟨⟨(acts.1, fun a i b => (ls i).first.2 a b), List.ofFn fun k : Fin acts.2.length =>
    (acts.2.get k, fun a i b => (((ls i).others[k.val]?).map fun o => o.2 a b).getD 0), fun a i b => (ls i).wo a b⟩, fun i => ?_⟩
  obtain ⟨h1, h2⟩ := h i
  have hlen : (ls i).others.length = acts.2.length := by rw [← h2, List.length_map]
  have ho : (List.map (fun o : (ℝ → ℝ) × (Fin d → Fin N → Fin f → ℝ) => (o.1, fun a b => o.2 a i b)) (List.ofFn fun k : Fin acts.2.length =>
      (acts.2.get k, fun a i b => (((ls i).others[k.val]?).map fun o => o.2 a b).getD 0))) = (ls i).others := by
    refine List.ext_getElem (by simp [hlen]) fun k hk1 hk2 => ?_
    have hk : acts.2[k]? = some ((ls i).others[k].1) := by
      rw [← h2, List.getElem?_map, List.getElem?_eq_getElem hk2]; rfl
    have hk' : acts.2[k]'(by omega) = (ls i).others[k].1 := by
      rw [List.getElem?_eq_getElem (by omega)] at hk; exact Option.some.inj hk
    simp only [List.getElem_map, List.getElem_ofFn, List.get_eq_getElem, hk', List.getElem?_eq_getElem hk2, Option.map_some, Option.getD_some]
  simp only [MlpStack.slice, ho, ← h1]

/-- C100, checkpoints: for every network with separate layers there is a network with scanned layers that has its parameters as slices (and so
computes the same). -/
theorem C100_stack (net : Net d h e f V) (encActs decActs : (ℝ → ℝ) × List (ℝ → ℝ))
    (h1 : SameActivations (net.enc.map EncLayer.mlp) encActs) (h2 : SameActivations (net.dec.map DecLayer.mlp) decActs) :
    ∃ s : Scanned net.enc.length net.dec.length d h e f V, s.unstack = net ∧
      (∀ {n m : Nat} (b : Input n m), scanApply ex lg s b = apply ex lg net b) ∧
      ∀ {m : Nat} (L : Nat) (encTokens : Row m) (tokens : List Int), scanPredict ex lg s L encTokens tokens = predict ex lg net L encTokens tokens := by
  obtain ⟨sm, hsm⟩ := exists_mlpStack (fun i => (net.enc.get i).mlp) encActs (fun i => h1 _ (List.mem_map_of_mem (List.get_mem ..)))
  obtain ⟨sd, hsd⟩ := exists_mlpStack (fun i => (net.dec.get i).mlp) decActs (fun i => h2 _ (List.mem_map_of_mem (List.get_mem ..)))
  let E : EncStack net.enc.length d h e f := ⟨fun a i b => (net.enc.get i).rel a b, fun a i => (net.enc.get i).preAttention a,
    ⟨fun a i b c => (net.enc.get i).attention.query a b c, fun a i b c => (net.enc.get i).attention.key a b c,
      fun a i b c => (net.enc.get i).attention.value a b c, fun a i b c => (net.enc.get i).attention.out a b c⟩,
    fun a i => (net.enc.get i).preMlp a, sm⟩
  let D : DecStack net.dec.length d h e f := ⟨fun a i b => (net.dec.get i).rel a b, fun a i => (net.dec.get i).preSelf a,
    ⟨fun a i b c => (net.dec.get i).self.query a b c, fun a i b c => (net.dec.get i).self.key a b c,
      fun a i b c => (net.dec.get i).self.value a b c, fun a i b c => (net.dec.get i).self.out a b c⟩,
    fun a i => (net.dec.get i).preCross a,
    ⟨fun a i b c => (net.dec.get i).cross.query a b c, fun a i b c => (net.dec.get i).cross.key a b c,
      fun a i b c => (net.dec.get i).cross.value a b c, fun a i b c => (net.dec.get i).cross.out a b c⟩,
    fun a i => (net.dec.get i).preMlp a, sd⟩
  have hE : E.slice = net.enc.get := by
    funext i
    simp only [E, EncStack.slice, AttnStack.slice, hsm i]
  have hD : D.slice = net.dec.get := by
    funext i
    simp only [D, DecStack.slice, AttnStack.slice, hsd i]
  have hu : (⟨net.eps, net.table, E, net.encNorm, D, net.decNorm, net.head⟩ : Scanned net.enc.length net.dec.length d h e f V).unstack = net := by
    simp only [Scanned.unstack, hE, hD, List.ofFn_get]
  exact ⟨_, hu, fun b => by rw [C100_scan, hu], fun L encTokens tokens => by rw [C100_scan_decode, hu]⟩

/-! ### The hypotheses can be met -/

/-- A small model: one feature, two encoder layers with different bias tables, a gated MLP. -/
noncomputable def demoNet : Net 1 1 1 1 2 where
  eps := 1e-6
  table := fun _ _ => 1
  enc := [⟨fun _ b => if b = 0 then 1 else 0, fun _ => 1, ⟨fun _ _ _ => 2, fun _ _ _ => 3, fun _ _ _ => 1, fun _ _ _ => 1⟩, fun _ => 1,
      ⟨(fun x => max x 0, fun _ _ => 1), [(id, fun _ _ => 1)], fun _ _ => 1⟩⟩,
    ⟨fun _ _ => -1, fun _ => 1, ⟨fun _ _ _ => 1, fun _ _ _ => 2, fun _ _ _ => 5, fun _ _ _ => 1⟩, fun _ => 1,
      ⟨(fun x => max x 0, fun _ _ => 2), [(id, fun _ _ => 3)], fun _ _ => 1⟩⟩]
  encNorm := fun _ => 1
  dec := [⟨fun _ _ => 0, fun _ => 1, ⟨fun _ _ _ => 2, fun _ _ _ => 3, fun _ _ _ => 1, fun _ _ _ => 1⟩, fun _ => 1,
    ⟨fun _ _ _ => 2, fun _ _ _ => 3, fun _ _ _ => 1, fun _ _ _ => 1⟩, fun _ => 1, ⟨(id, fun _ _ => 1), [], fun _ _ => 1⟩⟩]
  decNorm := fun _ => 1
  head := .viaEmbedding

theorem demoNet_tame : Tame demoNet 104 7 := by
  refine ⟨by norm_num [demoNet], by norm_num, ?_, ?_, ?_⟩
  · intro l hl
    simp only [demoNet, List.mem_cons, List.not_mem_nil, or_false] at hl
    refine ⟨1, ?_, ?_⟩ <;> rcases hl with rfl | rfl
    · intro hd b; dsimp only; split_ifs <;> simp
    · intro hd b; simp
    · intro hd; norm_num [logitBound, Transformer.Spec.reach, Attn.flat]
    · intro hd; norm_num [logitBound, Transformer.Spec.reach, Attn.flat]
  · intro l hl
    simp only [demoNet, List.mem_singleton] at hl
    subst hl
    exact ⟨0, by simp, fun hd => by norm_num [logitBound, Transformer.Spec.reach, Attn.flat]⟩
  · intro l hl hd
    simp only [demoNet, List.mem_singleton] at hl
    subst hl
    norm_num [logitBound, Transformer.Spec.reach, Attn.flat, demoNet]

/-- The small model meets the hypotheses of the theorems on decoding. -/
example : ∃ y outs, apply Transformer.flushed lg demoNet (⟨![1], ![0, 1], ![1, 1], none, none⟩ : Input 2 1) = some y ∧
    predict Transformer.flushed lg demoNet 3 ![1] [0, 1] = some outs ∧ outs[1]? = some (y 1) := by
  obtain ⟨y, outs, a, b, c⟩ := C100_decode (lg := lg) (ex := Transformer.flushed) (θ := 104) (B := 7) (net := demoNet) (fun x hx => if_pos hx)
    (by norm_num) demoNet_tame (⟨![1], ![0, 1], ![1, 1], none, none⟩ : Input 2 1) rfl rfl 3 (by decide)
  exact ⟨y, outs, a, b, c 1 (by decide)⟩

/-- Its layers can be stacked, though their bias tables differ. -/
example : SameActivations (demoNet.enc.map EncLayer.mlp) (fun x => max x 0, [id]) ∧ SameActivations (demoNet.dec.map DecLayer.mlp) (id, []) ∧
    demoNet.enc.map EncLayer.rel = [fun _ b => if b = 0 then 1 else 0, fun _ _ => -1] := by
  refine ⟨?_, ?_, rfl⟩
  · intro p hp
    simp only [demoNet, List.map_cons, List.map_nil, List.mem_cons, List.not_mem_nil, or_false] at hp
    rcases hp with rfl | rfl <;> exact ⟨rfl, rfl⟩
  · intro p hp
    simp only [demoNet, List.map_cons, List.map_nil, List.mem_cons, List.not_mem_nil, or_false] at hp
    subst hp
    exact ⟨rfl, rfl⟩

end Verif.ScalableT5
