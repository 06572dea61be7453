import Verif.Props.ExportScore
import Verif.Props.T5Decode
import Verif.Props.Score
/-
C108: the prediction for an example does not depend on the batch it comes in, on the padding of its input, or on the buckets of an exported
model.
-/
namespace Verif.PredictIndep
open Verif.Sampling Verif.Sampling.Spec

/-- What sampling owes to a row determines it. -/
theorem rowOutput_unique {P : Type} {toks : List Int} {p i0 m : Nat} {eos : Int} {s : Nat → Int × P} {o o' : List Int}
    (h : RowOutput toks p i0 m eos s o) (h' : RowOutput toks p i0 m eos s o') : o = o' := by
  have key : ∀ j, o.getD j 0 = o'.getD j 0 := by
    intro j
    by_cases h1 : j < p
    · rw [h.prompt j h1, h'.prompt j h1]
    by_cases h2 : j < i0
    · rw [h.gap j (by omega) h2, h'.gap j (by omega) h2]
    by_cases h3 : m ≤ j
    · rw [h.limit j h3 (by omega), h'.limit j h3 (by omega)]
    obtain ⟨k, rfl⟩ : ∃ k, j = i0 + k := ⟨j - i0, by omega⟩
    by_cases h4 : ∀ k' < k, p ≤ i0 + k' → (s k').1 ≠ eos
    · rw [h.sampled k (by omega) (by omega) h4, h'.sampled k (by omega) (by omega) h4]
    · push Not at h4
      obtain ⟨k', a, b, c⟩ := h4
      rw [h.after_eos k' _ b (by omega) c (by omega), h'.after_eos k' _ b (by omega) c (by omega)]
  apply List.ext_getElem (h.length.trans h'.length.symm)
  intro j h1 h2
  have := key j
  rwa [List.getD_eq_getElem?_getD, List.getD_eq_getElem?_getD, List.getElem?_eq_getElem h1, List.getElem?_eq_getElem h2] at this

/-- **C108, sampling.**  Row `b` of one batch and row `b'` of another get the same result (tokens and log-probability) if they have the same
prompt, the same random choices, and models that cannot be told apart from the outside (`R` relates their caches).  The other rows, their
number and how long they take do not matter. -/
theorem C108_sampling {S S' : Type} {V : Nat} (f : Nat → S → Int → (Fin V → ℝ) × S) (f' : Nat → S' → Int → (Fin V → ℝ) × S')
    (pick pick' : Nat → Nat → (Fin V → ℝ) → Fin V) (eos : Int) (he : eos ≠ 0) (inps inps' : List Inp) (c : Nat → S) (c' : Nat → S')
    (width width' : Nat) (hw : ∀ r ∈ inps, r.toks.length ≤ width) (hw' : ∀ r ∈ inps', r.toks.length ≤ width') (fuel fuel' : Nat)
    (hf : max 1 width ≤ fuel) (hf' : max 1 width' ≤ fuel') (b b' : Nat) (r : Inp) (hb : inps[b]? = some r) (hb' : inps'[b']? = some r)
    (p : Nat) (hp : RightPadded r.toks p) (hi : r.initialIndex.getD 0 < maxDecodeLen r) (hpick : ∀ k, pick k b = pick' k b')
    (R : S → S' → Prop) (h0 : R (c b) (c' b'))
    (hstep : ∀ s s' t, R s s' → (f b s t).1 = (f' b' s' t).1 ∧ R (f b s t).2 (f' b' s' t).2) :
    ∃ out lp, (Score.sample f pick eos fuel inps c)[b]? = some (out, lp) ∧ (Score.sample f' pick' eos fuel' inps' c')[b']? = some (out, lp) ∧
      out.length = r.toks.length := by
  have hs : ∀ k, (stateAt eos (Score.next f pick) (initSt eos inps (0, c)) k).aux.1 = k ∧
      (stateAt eos (Score.next f' pick') (initSt eos inps' (0, c')) k).aux.1 = k ∧
      R ((stateAt eos (Score.next f pick) (initSt eos inps (0, c)) k).aux.2 b)
        ((stateAt eos (Score.next f' pick') (initSt eos inps' (0, c')) k).aux.2 b') ∧
      (stateAt eos (Score.next f pick) (initSt eos inps (0, c)) k).rows[b]? =
        (stateAt eos (Score.next f' pick') (initSt eos inps' (0, c')) k).rows[b']? := by
    intro k
    induction k with
    | zero =>
      refine ⟨rfl, rfl, h0, ?_⟩
      change (inps.map (initRow eos))[b]? = (inps'.map (initRow eos))[b']?
      rw [List.getElem?_map, List.getElem?_map, hb, hb']
    | succ k ih =>
      obtain ⟨i1, i2, i3, i4⟩ := ih
      simp only [stateAt] at i1 i2 i3 i4 ⊢
      rw [Function.iterate_succ_apply', Function.iterate_succ_apply']
      generalize (body eos (Score.next f pick))^[k] (initSt eos inps (0, c)) = st at *
      generalize (body eos (Score.next f' pick'))^[k] (initSt eos inps' (0, c')) = st' at *
      have hcall := hstep _ _ ((st.rows[b]?.map (·.curToken)).getD 0) i3
      refine ⟨by simp only [body, Score.next, i1], by simp only [body, Score.next, i2], ?_, ?_⟩
      · simp only [body, Score.next]
        rw [← i4]; exact hcall.2
      · simp only [body, Score.next, List.getElem?_mapIdx]
        rw [← i4, ← hcall.1, i1, i2, hpick]
  have hsample : (fun k => (Score.next f pick (stateAt eos (Score.next f pick) (initSt eos inps (0, c)) k)).2 b) =
      fun k => (Score.next f' pick' (stateAt eos (Score.next f' pick') (initSt eos inps' (0, c')) k)).2 b' := by
    funext k
    obtain ⟨i1, i2, i3, i4⟩ := hs k
    have hcall := hstep _ _ (((stateAt eos (Score.next f pick) (initSt eos inps (0, c)) k).rows[b]?.map (·.curToken)).getD 0) i3
    simp only [Score.next]
    rw [← i4, ← hcall.1, i1, i2, hpick]
  obtain ⟨o, l, e1, e2, e3⟩ := C06_rows eos he (Score.next f pick) inps (0, c) width hw fuel hf b r hb p hp hi
  obtain ⟨o', l', e1', e2', e3'⟩ := C06_rows eos he (Score.next f' pick') inps' (0, c') width' hw' fuel' hf' b' r hb' p hp hi
  rw [← hsample] at e2' e3'
  obtain rfl := rowOutput_unique e2 e2'
  exact ⟨o, l, e1, by rw [e3, ← e3']; exact e1', e2.length⟩

/-! ### The T5 network -/

section
open Verif.Transformer Verif.Transformer.Spec Verif.T5Decode Verif.Masks

variable {d h e f V : Nat} {ex : ℝ → ℝ} {lg : ℕ → ℝ} {net : Transformer.Net d h e f V} {θ M : ℝ}

/-- The row holds the text `x` and then padding. -/
def Padded {m : Nat} (row : Masks.Row m) (x : List Int) : Prop := x.length ≤ m ∧ ∀ i : Fin m, row i = x.getD i.val 0

theorem getD_pos {x : List Int} (hx : ∀ t ∈ x, 0 < t) (i : Nat) : 0 < x.getD i 0 ↔ i < x.length := by
  rw [List.getD_eq_getElem?_getD]
  constructor
  · intro hp
    by_contra hc
    rw [List.getElem?_eq_none (by omega)] at hp
    simp at hp
  · intro hi
    rw [List.getElem?_eq_getElem hi]
    exact hx _ (List.getElem_mem hi)

/-- The encoder gives the same vectors at the text positions. -/
theorem encoder_padded (hex : Underflows ex θ) (hθ : 0 < θ) (ht : Tame net θ M) {m m' : Nat} (r : Masks.Row m) (r' : Masks.Row m') (x : List Int)
    (hx : ∀ t ∈ x, 0 < t) (hr : Padded r x) (hr' : Padded r' x) (i : Fin m) (j : Fin m') (hij : i.val = j.val) (hi : i.val < x.length) :
    net.enc.foldl (encLayer ex lg net (makeEncoderMask r none)) (fun i => embed net.table (r i)) i =
      net.enc.foldl (encLayer ex lg net (makeEncoderMask r' none)) (fun i => embed net.table (r' i)) j := by
  obtain ⟨A, hA, sA⟩ := encMask r none
  obtain ⟨A', hA', sA'⟩ := encMask r' none
  rw [hA, hA']
  have hpos := getD_pos hx
  let Q : Fin m → Fin m' → Prop := fun i j => i.val = j.val ∧ i.val < x.length
  have hc : Corr 0 Q A A' := by
    refine ⟨fun i j a => by have := a.1; omega, fun i j a => ⟨i, (sA i i).2 ?_⟩, fun i j a k hk => ?_, fun i j a l hl => ?_⟩
    · have : r i > 0 := by rw [hr.2]; exact (hpos _).2 a.2
      exact ⟨this, this, fun s hs => by cases hs⟩
    · obtain ⟨k1, k2, -⟩ := (sA i k).1 hk
      rw [hr.2] at k1 k2
      have k3 := (hpos _).1 k2
      refine ⟨⟨k.val, lt_of_lt_of_le k3 hr'.1⟩, ⟨rfl, k3⟩, (sA' _ _).2 ⟨?_, ?_, fun s hs => by cases hs⟩⟩
      · rw [hr'.2, ← a.1]; exact k1
      · rw [hr'.2]; exact k2
    · obtain ⟨k1, k2, -⟩ := (sA' j l).1 hl
      rw [hr'.2] at k1 k2
      have k3 := (hpos _).1 k2
      refine ⟨⟨l.val, lt_of_lt_of_le k3 hr.1⟩, ⟨rfl, k3⟩, (sA _ _).2 ⟨?_, ?_, fun s hs => by cases hs⟩⟩
      · rw [hr.2, a.1]; exact k1
      · rw [hr.2]; exact k2
  refine enc_sim hex hθ ht hc net.enc (fun l hl => hl) _ _ ?_ i j ⟨hij, hi⟩
  intro i j a
  simp only [hr.2, hr'.2, a.1]

/-- One decoding step is the same whatever the padding of the encoder side. -/
theorem step_padded (hex : Underflows ex θ) (hθ : 0 < θ) (ht : Tame net θ M) {L m m' : Nat} (r : Masks.Row m) (r' : Masks.Row m') (x : List Int)
    (hne : x ≠ []) (hx : ∀ t ∈ x, 0 < t) (hr : Padded r x) (hr' : Padded r' x) (cs : List (DecLayer d h e f × KVCache.Cache h e L))
    (hcs : ∀ c ∈ cs, c.1 ∈ net.dec) (t : Int) :
    step ex lg net r (encoder ex lg net r (makeEncoderMask r none)) cs t =
      step ex lg net r' (encoder ex lg net r' (makeEncoderMask r' none)) cs t ∧
    ∀ c ∈ (step ex lg net r (encoder ex lg net r (makeEncoderMask r none)) cs t).2, c.1 ∈ net.dec := by
  have hpos := getD_pos hx
  have hgap := ht.gap
  let Q : Fin m → Fin m' → Prop := fun i j => i.val = j.val ∧ i.val < x.length
  have hcross : ∀ (l : DecLayer d h e f), l ∈ net.dec → ∀ q : Vec d,
      Transformer.attention ex l.cross (layerNorm net.eps l.preCross q) (encoder ex lg net r (makeEncoderMask r none))
        (some ((makeAttentionMask (fun _ => 1) (fun i => ofBool (r i > 0)) multiply : Mask 1 m) 0)) none =
      Transformer.attention ex l.cross (layerNorm net.eps l.preCross q) (encoder ex lg net r' (makeEncoderMask r' none))
        (some ((makeAttentionMask (fun _ => 1) (fun i => ofBool (r' i > 0)) multiply : Mask 1 m') 0)) none := by
    intro l hl q
    have mp : ∀ {n : Nat} (s : Masks.Row n) (k : Fin n),
        (makeAttentionMask (fun _ => 1) (fun i => ofBool (s i > 0)) multiply : Mask 1 n) 0 k > 0 ↔ s k > 0 := by
      intro n s k
      by_cases hk : s k > 0 <;> simp [makeAttentionMask, multiply, ofBool, hk]
    refine attention_sim ex θ M hex hgap (by linarith) _ _ Q (fun k k' l a b => Fin.ext (by have := a.1; have := b.1; omega))
      (fun k l l' a b => Fin.ext (by have := a.1; have := b.1; omega)) _ _ _ _ _ _ ?_ ?_ ?_ ?_ ?_ ?_ ?_
    · intro hd k
      exact (raw_le net.eps ht.eps _ _ _ _ _ none 0 (by simp) hd k).trans (ht.cross l hl hd)
    · intro hd k
      exact (raw_le net.eps ht.eps _ _ _ _ _ none 0 (by simp) hd k).trans (ht.cross l hl hd)
    · have h0 : 0 < x.length := List.length_pos_iff.2 hne
      exact ⟨⟨0, lt_of_lt_of_le h0 hr.1⟩, (mp _ _).2 (by rw [hr.2]; exact (hpos _).2 h0)⟩
    · intro k hk
      rw [mp, hr.2] at hk
      have := (hpos _).1 hk
      exact ⟨⟨k.val, lt_of_lt_of_le this hr'.1⟩, ⟨rfl, this⟩, (mp _ _).2 (by rw [hr'.2]; exact hk)⟩
    · intro k hk
      rw [mp, hr'.2] at hk
      have := (hpos _).1 hk
      exact ⟨⟨k.val, lt_of_lt_of_le this hr.1⟩, ⟨rfl, this⟩, (mp _ _).2 (by rw [hr.2]; exact hk)⟩
    · intro k l' hkl _
      simp only [encoder]
      rw [encoder_padded hex hθ ht r r' x hx hr hr' k l' hkl.1 hkl.2]
    · intro hd k l' _; rfl
  have hstack : ∀ (cs : List (DecLayer d h e f × KVCache.Cache h e L)), (∀ c ∈ cs, c.1 ∈ net.dec) → ∀ y : Vec d,
      stackStep ex lg net ((makeAttentionMask (fun _ => 1) (fun i => ofBool (r i > 0)) multiply : Mask 1 m) 0)
        (encoder ex lg net r (makeEncoderMask r none)) cs y =
      stackStep ex lg net ((makeAttentionMask (fun _ => 1) (fun i => ofBool (r' i > 0)) multiply : Mask 1 m') 0)
        (encoder ex lg net r' (makeEncoderMask r' none)) cs y ∧
      ∀ c ∈ (stackStep ex lg net ((makeAttentionMask (fun _ => 1) (fun i => ofBool (r i > 0)) multiply : Mask 1 m) 0)
        (encoder ex lg net r (makeEncoderMask r none)) cs y).2, c.1 ∈ net.dec := by
    intro cs
    induction cs with
    | nil => intro _ y; exact ⟨rfl, by simp [stackStep]⟩
    | cons a cs ih =>
      intro ha y
      obtain ⟨l, c⟩ := a
      have hl : l ∈ net.dec := ha _ (List.mem_cons_self ..)
      have e1 : layerStep ex lg net ((makeAttentionMask (fun _ => 1) (fun i => ofBool (r i > 0)) multiply : Mask 1 m) 0)
          (encoder ex lg net r (makeEncoderMask r none)) l c y =
          layerStep ex lg net ((makeAttentionMask (fun _ => 1) (fun i => ofBool (r' i > 0)) multiply : Mask 1 m') 0)
          (encoder ex lg net r' (makeEncoderMask r' none)) l c y := by
        simp only [layerStep]
        rw [hcross l hl]
      have ih' := ih (fun c hc => ha c (List.mem_cons_of_mem _ hc))
      simp only [stackStep]
      rw [← e1]
      refine ⟨by rw [(ih' _).1], ?_⟩
      intro q hq
      rcases List.mem_cons.1 hq with rfl | hq
      · exact hl
      · exact (ih' _).2 q hq
  obtain ⟨h1, h2⟩ := hstack cs hcs (embed net.table t)
  refine ⟨?_, ?_⟩
  · simp only [step]; rw [h1]
  · simp only [step]; exact h2

/-- **C108, the T5 network.**  The same example in two batches, with encoder rows padded to any lengths: sampling returns the same tokens with the
same log-probability, provided it makes the same random choices for the two rows (greedy choices do). -/
theorem C108_t5 (hex : Underflows ex θ) (hθ : 0 < θ) (ht : Tame net θ M) {m m' n : Nat} (enc : Nat → Masks.Row m) (enc' : Nat → Masks.Row m')
    (pick pick' : Nat → Nat → Vec V → Fin V) (eos : Int) (he : eos ≠ 0) (prompts prompts' : List (Masks.Row n × Option Nat))
    (fuel fuel' : Nat) (hf : max 1 n ≤ fuel) (hf' : max 1 n ≤ fuel') (b b' : Nat) (r : Masks.Row n × Option Nat)
    (hb : prompts[b]? = some r) (hb' : prompts'[b']? = some r) (p : Nat) (hp : RightPadded (List.ofFn r.1) p) (hlim : r.2 ≠ some 0 ∨ 1 ≤ p)
    (hpick : ∀ k, pick k b = pick' k b') (x : List Int) (hne : x ≠ []) (hx : ∀ t ∈ x, 0 < t) (hr : Padded (enc b) x) (hr' : Padded (enc' b') x) :
    ∃ out lp, (predictBatch ex lg net enc pick eos fuel prompts)[b]? = some (out, lp) ∧
      (predictBatch ex lg net enc' pick' eos fuel' prompts')[b']? = some (out, lp) ∧ out.length = n := by
  have hlen : ∀ l : List (Masks.Row n × Option Nat), ∀ q ∈ l.map (fun r => (⟨List.ofFn r.1, none, r.2⟩ : Inp)), q.toks.length ≤ n := by
    intro l q hq
    obtain ⟨r', _, rfl⟩ := List.mem_map.1 hq
    simp
  have hi : (0 : Nat) < maxDecodeLen ⟨List.ofFn r.1, none, r.2⟩ := by
    have h1 := hp.lt
    unfold maxDecodeLen
    cases hs : r.2 with
    | none => simp only []; omega
    | some s =>
      simp only []
      have : 0 < ((List.ofFn r.1).filter (· ≠ 0)).length + s := by
        rcases hlim with h2 | h2
        · have : s ≠ 0 := fun hc => h2 (by rw [hs, hc])
          omega
        · have h3 := hp.prompt 1 le_rfl h2
          have h4 : 1 < (List.ofFn r.1).length := by omega
          rw [List.getD_eq_getElem?_getD, List.getElem?_eq_getElem h4] at h3
          have : (List.ofFn r.1)[1] ∈ (List.ofFn r.1).filter (· ≠ 0) := List.mem_filter.2 ⟨List.getElem_mem h4, by simpa using h3⟩
          have := List.length_pos_of_mem this
          omega
      omega
  obtain ⟨o, lp, h1, h2, h3⟩ := C108_sampling
    (fun b => step ex lg net (enc b) (encoder ex lg net (enc b) (makeEncoderMask (enc b) none)))
    (fun b => step ex lg net (enc' b) (encoder ex lg net (enc' b) (makeEncoderMask (enc' b) none)))
    pick pick' eos he (prompts.map fun r => ⟨List.ofFn r.1, none, r.2⟩) (prompts'.map fun r => ⟨List.ofFn r.1, none, r.2⟩)
    (fun _ => emptyCaches net n) (fun _ => emptyCaches net n) n n (hlen _) (hlen _) fuel fuel' hf hf' b b' ⟨List.ofFn r.1, none, r.2⟩
    (by rw [List.getElem?_map, hb]; rfl) (by rw [List.getElem?_map, hb']; rfl) p hp hi hpick
    (fun cs cs' => cs = cs' ∧ ∀ c ∈ cs, c.1 ∈ net.dec)
    ⟨rfl, fun c hc => by obtain ⟨l, hl, rfl⟩ := List.mem_map.1 hc; exact hl⟩
    (fun cs cs' t hR => by
      obtain ⟨rfl, hm⟩ := hR
      obtain ⟨k1, k2⟩ := step_padded (lg := lg) hex hθ ht (enc b) (enc' b') x hne hx hr hr' cs hm t
      exact ⟨by rw [k1], by rw [k1], k2⟩)
  exact ⟨o, lp, h1, h2, by simpa using h3⟩

/-! ### Exported models -/

open Verif.Export Verif.Export.Spec Verif.ExportScore

theorem headD_length {a : List (List Int)} {n w : Nat} (h : IsArray a n w) (hn : 0 < n) : (a.headD []).length = w := by
  cases a with
  | nil => have := h.1; simp at this; omega
  | cons r l => exact h.2 r (List.mem_cons_self ..)

/-- What an export of the model predicts, in terms of the rows it makes. -/
theorem served_eq (ex : ℝ → ℝ) (lg : ℕ → ℝ) (net : Transformer.Net d h e f V) (pick : Nat → Nat → Vec V → Fin V) (eos : Int) (fi ft : Feature)
    (hfi : Valid fi) (hft : Valid ft) (inputs : List (List Int)) (hne : inputs ≠ []) :
    ∃ x wi w, servedPredictions ex lg net pick eos fi ft inputs = some (predictFeatures ex lg net pick eos x wi w) ∧ Width ft [[]] w ∧
      x.decoderInput.length = inputs.length ∧
      ∀ i (hi : i < inputs.length), Padded (fun j : Fin wi => (x.encoderInput.getD i []).getD j.val 0) (wanted fi inputs[i]) := by
  have hpos : 0 < inputs.length := List.length_pos_iff.2 hne
  obtain ⟨q, wi, wt, hq, hWi, hWt, a1, a2, a3, a4, hE, hT⟩ := C67_features fi ft hfi hft inputs (inputs.map fun _ => []) hne (by simpa using hne)
  rw [List.length_map] at a3
  refine ⟨q, wi, wt, ?_, ?_, a3.1, fun i hi => ⟨hWi.2.1 _ (List.getElem_mem hi), fun j => hE i hi j.val⟩⟩
  · simp only [servedPredictions, hq, headD_length a1 hpos, headD_length a3 hpos]
  · obtain ⟨t, ht⟩ := List.exists_mem_of_ne_nil _ hne
    have hmem : ([] : List Int) ∈ inputs.map fun _ => ([] : List Int) := List.mem_map.2 ⟨t, ht, rfl⟩
    refine ⟨hWt.1, fun s hs => ?_, fun v hv hall => hWt.2.2 v hv fun s hs => ?_⟩
    · rw [List.mem_singleton] at hs; subst hs; exact hWt.2.1 _ hmem
    · obtain ⟨_, _, rfl⟩ := List.mem_map.1 hs
      exact hall _ (List.mem_singleton_self _)

/-- **C108, exported models.**  Two exports of the model with the same length and EOS of the inputs but other buckets predict the same for an
example, whatever the batches it comes in (for choices that do not depend on the row).  The number of positions decoded is the smallest width the
targets may have: it does not depend on the inputs. -/
theorem C108_served (hex : Underflows ex θ) (hθ : 0 < θ) (ht : Tame net θ M) (pick : Nat → Nat → Vec V → Fin V) (hpick : ∀ k b b', pick k b = pick k b')
    (eos : Int) (he : eos ≠ 0) (fi fi' ft : Feature) (hfi : Valid fi) (hfi' : Valid fi') (hft : Valid ft)
    (hsame : fi'.eos = fi.eos ∧ fi'.length = fi.length) (hei : ∀ a, fi.eos = some a → 0 < a) (het : ft.eos ≠ none)
    (inputs inputs' : List (List Int)) (i j : Nat) (t : List Int) (h1 : inputs[i]? = some t) (h2 : inputs'[j]? = some t)
    (htok : ∀ a ∈ t, 0 < a) (htext : wanted fi t ≠ []) :
    ∃ P P' out lp, servedPredictions ex lg net pick eos fi ft inputs = some P ∧ servedPredictions ex lg net pick eos fi' ft inputs' = some P' ∧
      P[i]? = some (out, lp) ∧ P'[j]? = some (out, lp) ∧ Width ft [[]] out.length := by
  obtain ⟨hi1, hx1⟩ := List.getElem?_eq_some_iff.1 h1
  obtain ⟨hj1, hx2⟩ := List.getElem?_eq_some_iff.1 h2
  have ne : ∀ (l : List (List Int)) k, k < l.length → l ≠ [] := fun l k hk hc => by subst hc; simp at hk
  obtain ⟨x, wi, w, e1, hw, hd, hrow⟩ := served_eq ex lg net pick eos fi ft hfi hft inputs (ne _ i hi1)
  obtain ⟨x', wi', w', e1', hw', hd', hrow'⟩ := served_eq ex lg net pick eos fi' ft hfi' hft inputs' (ne _ j hj1)
  obtain rfl : w' = w := width_unique ft _ _ _ hw' hw
  have hwpos : 0 < w' := by
    have := hw.2.1 [] (List.mem_singleton_self _)
    unfold wanted at this
    cases hc : ft.eos with
    | none => exact absurd hc het
    | some a => rw [hc] at this; simp at this; omega
  have hwant : wanted fi' t = wanted fi t := by unfold wanted; rw [hsame.1, hsame.2]
  have hr := hrow i hi1
  have hr' := hrow' j hj1
  rw [hx1] at hr
  rw [hx2, hwant] at hr'
  have hzero : ∀ k, (List.ofFn fun _ : Fin w' => (0 : Int)).getD k 0 = 0 := fun k => by
    rw [List.ofFn_const, List.getD_eq_getElem?_getD, List.getElem?_replicate]
    split_ifs <;> rfl
  have hprompt : ∀ (y : EncDec) (k : Nat), k < y.decoderInput.length →
      (y.decoderInput.map fun _ => (((fun _ => 0), none) : Masks.Row w' × Option Nat))[k]? = some ((fun _ => 0), none) := by
    intro y k hk
    rw [List.getElem?_map, List.getElem?_eq_getElem hk]; rfl
  obtain ⟨o, lp, r1, r2, r3⟩ := C108_t5 (lg := lg) (n := w') hex hθ ht (fun b (j : Fin wi) => (x.encoderInput.getD b []).getD j.val 0)
    (fun b (j : Fin wi') => (x'.encoderInput.getD b []).getD j.val 0) pick pick eos he
    (x.decoderInput.map fun _ => ((fun _ => 0), none)) (x'.decoderInput.map fun _ => ((fun _ => 0), none)) (max 1 w') (max 1 w') le_rfl le_rfl i j
    ((fun _ => 0), none) (hprompt x i (by omega)) (hprompt x' j (by omega)) 0
    ⟨by simpa using hwpos, fun j a b => by omega, fun j _ => hzero j⟩ (Or.inl (by simp)) (fun k => hpick k i j) (wanted fi t) htext
    (wanted_pos fi t htok hei) hr hr'
  exact ⟨_, _, o, lp, e1, e1', r1, r2, by rw [r3]; exact hw⟩

/-- C108, a limit: with buckets for the targets too, a predicting model decodes only as many tokens as the smallest of them holds, because the
targets it is given are empty; here 4 of the 64 that the feature allows. -/
theorem C108_short_predictions (hex : Underflows ex θ) (hθ : 0 < θ) (ht : Tame net θ M) (pick : Nat → Nat → Vec V → Fin V)
    (hpick : ∀ k b b', pick k b = pick k b') (fi : Feature) (hfi : Valid fi) (hei : ∀ a, fi.eos = some a → 0 < a)
    (inputs : List (List Int)) (hne : inputs ≠ []) (htok : ∀ t ∈ inputs, ∀ a ∈ t, 0 < a) (htext : ∀ t ∈ inputs, wanted fi t ≠ []) :
    ∃ P, servedPredictions ex lg net pick 1 fi ⟨some 1, 64, some [4, 16, 64]⟩ inputs = some P ∧ P.length = inputs.length ∧
      ∀ r ∈ P, r.1.length = 4 := by
  have hft : Valid ⟨some 1, 64, some [4, 16, 64]⟩ := by unfold Valid widths; decide
  obtain ⟨x, wi, w, e1, hw, hd, hrow⟩ := served_eq ex lg net pick 1 fi ⟨some 1, 64, some [4, 16, 64]⟩ hfi hft inputs hne
  have hP : (predictFeatures ex lg net pick 1 x wi w).length = inputs.length := by
    rw [← hd]
    unfold predictFeatures predictBatch Score.sample
    rw [singleTrial_length, List.length_map, List.length_map]
  refine ⟨_, e1, hP, fun r hr => ?_⟩
  obtain ⟨i, hi, rfl⟩ := List.getElem_of_mem hr
  have hi' : i < inputs.length := by rw [← hP]; exact hi
  obtain ⟨P, P', o, lp, q1, -, q2, -, q3⟩ := C108_served (lg := lg) hex hθ ht pick hpick 1 (by decide) fi fi ⟨some 1, 64, some [4, 16, 64]⟩ hfi hfi hft
    ⟨rfl, rfl⟩ hei (by simp) inputs inputs i i inputs[i] (List.getElem?_eq_getElem hi') (List.getElem?_eq_getElem hi')
    (htok _ (List.getElem_mem hi')) (htext _ (List.getElem_mem hi'))
  rw [e1] at q1
  cases q1
  rw [List.getElem?_eq_getElem hi] at q2
  cases hq : (predictFeatures ex lg net pick 1 x wi w)[i] with
  | mk a b =>
    rw [hq] at q2
    cases q2
    refine width_unique _ _ _ _ q3 ⟨by simp [widths], fun t ht => ?_, fun v hv _ => ?_⟩
    · rw [List.mem_singleton] at ht; subst ht; simp [wanted]
    · simp [widths] at hv; omega

/-- Greedy choice, for the example. -/
noncomputable def firstToken (_ _ : Nat) (x : Vec 2) : Fin 2 := if x 0 ≤ x 1 then 1 else 0

/-- An example: one input alone, without buckets, and after a longer one, with buckets. -/
example : ∃ P P' out lp, servedPredictions flushed lg demoNet firstToken 1 ⟨some 1, 4, none⟩ ⟨some 1, 3, none⟩ [[1]] = some P ∧
    servedPredictions flushed lg demoNet firstToken 1 ⟨some 1, 4, some [2, 4]⟩ ⟨some 1, 3, none⟩ [[1, 1, 1], [1]] = some P' ∧
    P[0]? = some (out, lp) ∧ P'[1]? = some (out, lp) ∧ out.length = 3 := by
  obtain ⟨P, P', o, lp, h1, h2, h3, h4, h5⟩ := C108_served (lg := lg) (fun x hx => if_pos hx) (by norm_num) demoNet_tame firstToken (fun _ _ _ => rfl)
    1 (by decide) ⟨some 1, 4, none⟩ ⟨some 1, 4, some [2, 4]⟩ ⟨some 1, 3, none⟩ (by unfold Valid widths; decide) (by unfold Valid widths; decide)
    (by unfold Valid widths; decide) ⟨rfl, rfl⟩ (by simp) (by simp) [[1]] [[1, 1, 1], [1]] 0 1 [1] rfl rfl (by decide) (by decide)
  exact ⟨P, P', o, lp, h1, h2, h3, h4, by have := h5.1; simpa [widths] using this⟩

end

end Verif.PredictIndep
