import Verif.Lemmas.ArrayT5
import Verif.Spec.ArrayLm
/-
Every layer of the decoder-only network on arrays computes, in every row of the batch, what the row-wise model computes.
-/
namespace Verif.ArrLm
open Verif.ND Verif.Arr Verif.ArrT5.Spec Verif.ArrLm.Spec

variable {B n m d h e f V L : Nat}

/-! ### Operations -/

section Ops
variable {α β γ : Type} {a : NDArray α} {b : NDArray β} {k q : Nat}

theorem zip_21_1 (g : α → β → γ) {x : Fin m → Fin 1 → α} {y : Fin n → β} (ha : Holds2 a x) (hb : Holds1 b y) :
    ∃ r, zipA g a b = some r ∧ Holds2 r fun i j => g (x i 0) (y j) := by
  refine ⟨_, by simp [zipA, ha.1, hb.1, bshape, padTo, bdims]; rfl, rfl, fun i j => ?_⟩
  have h1 := ha.2 i 0
  simp at h1
  simp [bindex, h1, hb.2]

theorem zip_2_2 (g : α → β → γ) {x : Fin m → Fin n → α} {y : Fin m → Fin n → β} (ha : Holds2 a x) (hb : Holds2 b y) :
    ∃ r, zipA g a b = some r ∧ Holds2 r fun i j => g (x i j) (y i j) := by
  refine ⟨_, by simp [zipA, ha.1, hb.1, bshape, padTo, bdims]; rfl, rfl, fun i j => ?_⟩
  simp [bindex, ha.2, hb.2]

/-- The one-hot scatter: [m, n, k, 1] with [m, 1, 1, q]. -/
theorem zip_scatter (g : α → β → γ) {x : Fin m → Fin n → Fin k → Fin 1 → α} {y : Fin m → Fin 1 → Fin 1 → Fin q → β} (ha : Holds4 a x)
    (hb : Holds4 b y) : ∃ r, zipA g a b = some r ∧ Holds4 r fun i j l t => g (x i j l 0) (y i 0 0 t) := by
  refine ⟨_, by simp [zipA, ha.1, hb.1, bshape, padTo, bdims]; rfl, rfl, fun i j l t => ?_⟩
  have h1 := ha.2 i j l 0
  have h2 := hb.2 i 0 0 t
  simp at h1 h2
  simp [bindex, h1, h2]

/-- [m, n, k, q] with [m, 1, 1, 1]. -/
theorem zip_4_rows (g : α → β → γ) {x : Fin m → Fin n → Fin k → Fin q → α} {y : Fin m → Fin 1 → Fin 1 → Fin 1 → β} (ha : Holds4 a x)
    (hb : Holds4 b y) : ∃ r, zipA g a b = some r ∧ Holds4 r fun i j l t => g (x i j l t) (y i 0 0 0) := by
  refine ⟨_, by simp [zipA, ha.1, hb.1, bshape, padTo, bdims]; rfl, rfl, fun i j l t => ?_⟩
  have h2 := hb.2 i 0 0 0
  simp at h2
  simp [bindex, ha.2, h2]

/-- A mask and biases that differ from row to row. -/
theorem zip_mask_rows (g : α → β → γ) {x : Fin m → Fin 1 → Fin k → Fin q → α} {y : Fin m → Fin n → Fin k → Fin q → β} (ha : Holds4 a x)
    (hb : Holds4 b y) : ∃ r, zipA g a b = some r ∧ Holds4 r fun i j l t => g (x i 0 l t) (y i j l t) := by
  refine ⟨_, by simp [zipA, ha.1, hb.1, bshape, padTo, bdims]; rfl, rfl, fun i j l t => ?_⟩
  have h1 := ha.2 i 0 l t
  simp at h1
  simp [bindex, h1, hb.2]

theorem expand_1_m1 {x : Fin n → α} (ha : Holds1 a x) : ∃ r, expandDims a (-1) = some r ∧ Holds2 r fun i (_ : Fin 1) => x i :=
  ⟨_, by simp [expandDims, normAxis, ha.1]; rfl, by simp [List.insertIdx], fun i j => by simp [ha.2]⟩
theorem expand_2_1 {x : Fin m → Fin n → α} (ha : Holds2 a x) : ∃ r, expandDims a 1 = some r ∧ Holds3 r fun i (_ : Fin 1) j => x i j :=
  ⟨_, by simp [expandDims, normAxis, ha.1]; rfl, by simp [List.insertIdx], fun i j l => by simp [ha.2]⟩
theorem expand_3_1 {x : Fin m → Fin n → Fin k → α} (ha : Holds3 a x) :
    ∃ r, expandDims a 1 = some r ∧ Holds4 r fun i (_ : Fin 1) j l => x i j l :=
  ⟨_, by simp [expandDims, normAxis, ha.1]; rfl, by simp [List.insertIdx], fun i j l t => by simp [ha.2]⟩
theorem expand_3_2 {x : Fin m → Fin n → Fin k → α} (ha : Holds3 a x) :
    ∃ r, expandDims a 2 = some r ∧ Holds4 r fun i j (_ : Fin 1) l => x i j l :=
  ⟨_, by simp [expandDims, normAxis, ha.1]; rfl, by simp [List.insertIdx], fun i j l t => by simp [ha.2]⟩

theorem lead_0 {x : Fin n → α} (ha : Holds1 a x) : ∃ r, reshapeLead a 0 = some r ∧ Holds1 r x :=
  ⟨_, by simp [reshapeLead, reshape, ha.1]; rfl, rfl, fun i => by simp [ravel, unravel, ha.2]⟩
theorem lead_3 {x : Fin n → α} (ha : Holds1 a x) : ∃ r, reshapeLead a 3 = some r ∧ Holds4 r fun i (_ _ _ : Fin 1) => x i :=
  ⟨_, by simp [reshapeLead, reshape, ha.1]; rfl, by simp, fun i j l t => by
    simp [ravel, unravel, ha.2]⟩

theorem iota_4 (m n k q : Nat) : Holds4 (iotaLast [m, n, k, q]) fun (_ : Fin m) (_ : Fin n) (_ : Fin k) (t : Fin q) => t.val :=
  ⟨rfl, fun i j l t => by simp [iotaLast]⟩

theorem oneHot_2 {idx : NDArray Nat} {x : Fin m → Nat} (hx : Holds1 idx x) (n : Nat) :
    ∃ r, oneHot idx n = some r ∧ Holds2 r fun i (j : Fin n) => KVCache.oneHot (x i) n j := by
  obtain ⟨u, hu, h1⟩ := expand_1_m1 hx
  obtain ⟨r, hr, h2⟩ := zip_21_1 (fun (t : Nat) (v : Int) => if v = t then (1 : ℝ) else 0) h1 (arange_1 n)
  refine ⟨r, by simp only [oneHot, hu, Option.bind_some, hr], h2.1, fun i j => ?_⟩
  rw [h2.2]
  simp [KVCache.oneHot]

theorem einsum_pick {hot bias : NDArray ℝ} {x : Fin B → Fin L → ℝ} {y : Fin h → Fin L → Fin m → ℝ} (hx : Holds2 hot x)
    (hy : Holds4 bias fun (_ : Fin 1) => y) :
    ∃ r, einsumB ['b', 'q'] ['b', 'h', 'q', 'k'] ['b', 'h', 'k'] hot bias = some r ∧ Holds3 r fun b hd j => ∑ i, x b i * y hd i j := by
  refine ⟨_, by
    simp [einsumB, hx.1, hy.1, labelSize, List.lookup, List.dedup_cons_of_notMem]; rfl, ?_⟩
  refine ⟨rfl, fun b hd j => ?_⟩
  have h2 := fun i => hy.2 0 hd i j
  simp only [Fin.val_zero] at h2
  simp [sumBox, List.lookup, Finset.sum_range, labelOf, hx.2, h2]

theorem lengths_1 {inputs : NDArray Int} {x : Fin B → Fin n → Int} (hx : Holds2 inputs x) :
    ∃ r, fromSecond inputs = some r ∧
      Holds1 (sumLast (mapA (fun t : Int => if t ≠ 0 then 1 else 0) r)) fun b => KVCache.inputsLength (x b) := by
  refine ⟨⟨[B, n - 1], fun i => inputs.get [i.getD 0 0, i.getD 1 0 + 1]⟩, by simp only [fromSecond, hx.1], rfl, fun b => ?_⟩
  simp only [sumLast, mapA, List.getLastD_cons, List.getLastD_nil, List.cons_append, List.nil_append]
  unfold KVCache.inputsLength
  rw [Finset.card_filter]
  cases n with
  | zero => simp
  | succ n =>
    rw [Fin.sum_univ_succ]
    simp only [Nat.add_sub_cancel, Fin.val_zero, lt_irrefl, false_and, if_false, zero_add, Finset.sum_range]
    refine Finset.sum_congr rfl fun j _ => ?_
    have := hx.2 b j.succ
    simp at this
    simp [this]
end Ops

/-! ### Attention -/

theorem attendOut_rows (ex : ℝ → ℝ) {p : ArrT5.Attn} {out : Fin (h * e) → Fin d → ℝ} (hp : Holds2 p.out out) {query key value : NDArray ℝ}
    {q : Fin B → Fin n → Fin h → Fin e → ℝ} {k v : Fin B → Fin m → Fin h → Fin e → ℝ} (hq : Holds4 query q) (hk : Holds4 key k)
    (hv : Holds4 value v) {mask : NDArray Int} {M : Fin B → Fin n → Fin m → Int} (hm : Holds4 mask fun b (_ : Fin 1) i j => M b i j)
    {bias : NDArray ℝ} {R : Fin B → Fin n → Fin h → Fin m → ℝ} (hb : Holds4 bias fun b hd i j => R b i hd j) :
    ∃ r, ArrT5.attendOut ex p query key value (some mask) (some bias) d = some r ∧ Holds3 r fun b i => Transformer.projectOut out fun hd c =>
      ∑ j, Transformer.softmax ex (Transformer.logitsOf (q b i) (k b) (some (M b i)) (some (R b i)) hd) j * v b j hd c := by
  obtain ⟨w, hw, h1⟩ := ArrT5.einsum_logits hq hk
  obtain ⟨t, ht, h2⟩ := zip_mask_rows (fun u v : ℝ => u + v) (map_4 (fun m => if m > 0 then (0 : ℝ) else -1e10) hm) hb
  obtain ⟨u, hu, h3⟩ := zip_4_4 (fun u v : ℝ => u + v) h1 h2
  obtain ⟨y, hy, h4⟩ := ArrT5.einsum_values (ArrT5.softmax_4 ex h3) hv
  obtain ⟨r, hr, h5⟩ := ArrT5.projectOut_4 h4 hp
  refine ⟨r, ?_, h5⟩
  have hl : (mapA (fun m : Int => if m > 0 then (0 : ℝ) else -1e10) mask).shape = [B, 1, n, m] := hm.1
  have htot : ArrT5.attentionBias (some mask) (some bias) = some (some t) := by
    simp [ArrT5.attentionBias, ArrT5.combineBiases, hl, hb.1, ArrT5.combine, ht]
  simp only [ArrT5.attendOut, ArrT5.dotProductAttention, htot, Option.bind_some, hw, ArrT5.addBias, hu, hy, hr]

theorem attentionStep_3 (ex : ℝ → ℝ) {a : ArrT5.Attn} {w : Transformer.Attn d h e} (ha : AttnIs a w) {k : Cache}
    {c : Fin B → KVCache.Cache h e L} (hc : CacheIs k c) {inputs : NDArray ℝ} {x : Fin B → Fin 1 → Fin d → ℝ} (hx : Holds3 inputs x)
    {bias : NDArray ℝ} {rel : Fin h → Nat → Nat → ℝ} (hb : Holds4 bias fun (_ : Fin 1) hd (i : Fin L) (j : Fin L) => rel hd i.val j.val) :
    ∃ r k', attentionStep ex h e a k inputs none (some bias) = some (r, k') ∧
      (Holds3 r fun b i => (T5Decode.selfStep ex w (KVCache.einsumRow L rel) (c b) (x b i)).1) ∧
      CacheIs k' fun b => (T5Decode.selfStep ex w (KVCache.einsumRow L rel) (c b) (x b 0)).2 := by
  obtain ⟨q, hq, h1⟩ := ArrT5.project_3 hx ha.query
  obtain ⟨ke, hke, h2⟩ := ArrT5.project_3 hx ha.key
  obtain ⟨v, hv, h3⟩ := ArrT5.project_3 hx ha.value
  obtain ⟨cur, hcur, hcur1⟩ := lead_0 hc.index
  obtain ⟨hot, hhot, hh1⟩ := oneHot_2 hcur1 L
  obtain ⟨hot1, hhot1, hh2⟩ := expand_2_1 hh1
  obtain ⟨hot2, hhot2, hh3⟩ := expand_3_1 hh2
  obtain ⟨ke1, hke1, h4⟩ := move_back h2
  obtain ⟨v1, hv1, h5⟩ := move_back h3
  obtain ⟨ke2, hke2, h6⟩ := zip_scatter (fun u v : ℝ => u * v) h4 hh3
  obtain ⟨v2, hv2, h7⟩ := zip_scatter (fun u v : ℝ => u * v) h5 hh3
  obtain ⟨ke3, hke3, h8⟩ := zip_4_4 (fun u v : ℝ => u + v) hc.key h6
  obtain ⟨v3, hv3, h9⟩ := zip_4_4 (fun u v : ℝ => u + v) hc.value h7
  obtain ⟨ke4, hke4, h10⟩ := move_front h8
  obtain ⟨v4, hv4, h11⟩ := move_front h9
  have hLd : k.key.shape.getLastD 1 = L := by simp [hc.key.1]
  have hup : updateCacheDecode k ke v = some ⟨ke4, v4, cur, ⟨ke3, v3, mapA (fun i => i + 1) k.index⟩⟩ := by
    simp only [updateCacheDecode, hcur, hLd, hhot, hke1, hv1, hhot1, hhot2, hke2, hv2, hke3, hv3, hke4, hv4, Option.bind_some, Option.map_some]
  obtain ⟨pos, hpos, h12⟩ := broadcast_mask (arange_1 L) B
  obtain ⟨cur3, hcur3, h13⟩ := lead_3 hcur1
  obtain ⟨cm, hcm, h14⟩ := zip_4_rows (fun (j : Int) (i : Nat) => Masks.ofBool (j ≤ i)) h12 h13
  have hcomb : ArrT5.combineMasks [none, some cm] = some (some cm) := by simp [ArrT5.combineMasks, ArrT5.combine]
  obtain ⟨b1, hb1, h15⟩ := einsum_pick hh1 hb
  obtain ⟨b2, hb2, h16⟩ := expand_3_2 h15
  have hpick : pickBias cur L (some bias) = some (some b2) := by simp only [pickBias, hhot, hb1, hb2, Option.bind_some, Option.map_some]
  obtain ⟨r, hr, h17⟩ := attendOut_rows ex ha.out h1 h10 h11 (mask := cm)
    (M := fun (b : Fin B) (_ : Fin 1) (j : Fin L) => Masks.ofBool ((j.val : Int) ≤ (c b).index)) h14 (bias := b2)
    (R := fun (b : Fin B) (_ : Fin 1) => KVCache.einsumRow L rel (c b).index) h16
  have hd : inputs.shape.getLastD 1 = d := by simp [hx.1]
  refine ⟨r, ⟨ke3, v3, mapA (fun i => i + 1) k.index⟩, ?_, ?_, ?_⟩
  · unfold attentionStep
    simp only [hq, hke, hv, Option.bind_some, hc.key.1, h1.1, if_true, hup, hpos, hcur3, hcm, hcomb, hpick, hd, hr, Option.map_some]
  · refine ⟨h17.1, fun b i cc => ?_⟩
    rw [h17.2]
    have hi : i = 0 := Subsingleton.elim _ _
    subst hi
    simp only [T5Decode.selfStep, Nat.cast_le]
  · refine ⟨⟨h8.1, fun b hd e' j => ?_⟩, ⟨h9.1, fun b hd e' j => ?_⟩, ?_⟩
    · rw [h8.2]; simp only [T5Decode.selfStep]
    · rw [h9.2]; simp only [T5Decode.selfStep]
    · exact map_1 (fun i => i + 1) hc.index

/-- The cache that prefilling leaves in a row. -/
noncomputable def filled (w : Transformer.Attn d h e) (x : Fin n → Transformer.Vec d) (len : Nat) : KVCache.Cache h e n where
  key hd c j := Transformer.project w.key (x j) hd c * (if j.val < len then 1 else 0)
  value hd c j := Transformer.project w.value (x j) hd c * (if j.val < len then 1 else 0)
  index := len

theorem attentionPrefill_3 (ex : ℝ → ℝ) {a : ArrT5.Attn} {w : Transformer.Attn d h e} (ha : AttnIs a w) {k : Cache}
    (hk : k.key.shape = [B, h, e, n]) (hkv : k.value.shape = [B, h, e, n]) {lengths : NDArray Nat} {len : Fin B → Nat} (hlen : Holds1 lengths len)
    {inputs : NDArray ℝ} {x : Fin B → Fin n → Fin d → ℝ} (hx : Holds3 inputs x) {mask : Option (NDArray Int)}
    {M : Option (Fin B → Fin n → Fin n → Int)} (hm : ArrT5.MaskIs mask M) {bias : Option (NDArray ℝ)} {R : Option (Fin n → Fin h → Fin n → ℝ)}
    (hb : Option.Rel (fun (a : NDArray ℝ) (R : Fin n → Fin h → Fin n → ℝ) => Holds4 a fun (_ : Fin 1) hd i j => R i hd j) bias R) :
    ∃ r k', attentionPrefill ex h e a k lengths inputs mask bias = some (r, k') ∧
      (Holds3 r fun b i => Transformer.attention ex w (x b i) (x b) (M.map fun M => M b i) (R.map fun R => R i)) ∧
      CacheIs k' fun b => filled w (x b) (len b) := by
  obtain ⟨q, hq, h1⟩ := ArrT5.project_3 hx ha.query
  obtain ⟨ke, hke, h2⟩ := ArrT5.project_3 hx ha.key
  obtain ⟨v, hv, h3⟩ := ArrT5.project_3 hx ha.value
  obtain ⟨ke1, hke1, h4⟩ := move_back h2
  obtain ⟨v1, hv1, h5⟩ := move_back h3
  obtain ⟨bf, hbf, h6⟩ := lead_3 hlen
  obtain ⟨mk, hmk, h7⟩ := zip_4_rows (fun j i : Nat => if j < i then (1 : ℝ) else 0) (iota_4 B h e n) h6
  obtain ⟨ke2, hke2, h8⟩ := zip_4_4 (fun u v : ℝ => u * v) h4 h7
  obtain ⟨v2, hv2, h9⟩ := zip_4_4 (fun u v : ℝ => u * v) h5 h7
  have hrank : k.key.shape.length - 1 = 3 := by simp [hk]
  have hup : updateCachePrefill k ke v lengths = some ⟨ke, v, lengths, ⟨ke2, v2, lengths⟩⟩ := by
    simp only [updateCachePrefill, hke1, hv1, hrank, hbf, Option.bind_some]
    simp only [hk, hkv, hmk, hke2, hv2, Option.bind_some, Option.map_some]
  obtain ⟨r, hr, h10⟩ := ArrT5.attendOut_4 ex ha.out h1 h2 h3 hm hb
  have hd : inputs.shape.getLastD 1 = d := by simp [hx.1]
  refine ⟨r, ⟨ke2, v2, lengths⟩, ?_, h10, ⟨h8, h9, hlen⟩⟩
  simp only [attentionPrefill, hq, hke, hv, Option.bind_some, hup, hd, hr, Option.map_some]

theorem attentionInit_3 (ex : ℝ → ℝ) {a : ArrT5.Attn} {w : Transformer.Attn d h e} (ha : AttnIs a w) {inputs : NDArray ℝ}
    {x : Fin B → Fin n → Fin d → ℝ} (hx : Holds3 inputs x) {bias : NDArray ℝ} {R : Fin n → Fin h → Fin n → ℝ}
    (hb : Holds4 bias fun (_ : Fin 1) hd i j => R i hd j) :
    ∃ r k y, attentionInit ex h e a inputs none (some bias) = some (r, k) ∧ Holds3 (m := B) (n := n) (k := d) r y ∧
      k.key.shape = [B, h, e, n] ∧ k.value.shape = [B, h, e, n] := by
  obtain ⟨ke, hke, h2⟩ := ArrT5.project_3 hx ha.key
  obtain ⟨v, hv, h3⟩ := ArrT5.project_3 hx ha.value
  obtain ⟨r, hr, h4⟩ := ArrT5.attention_3 ex ha hx hx (mask := none) (M := none) .none (bias := some bias) (R := some R) (.some hb)
  refine ⟨r, ⟨zerosA (ArrT5.swapDims ke.shape), zerosA (ArrT5.swapDims v.shape), ⟨[], fun _ => 0⟩⟩, _, ?_, h4, ?_, ?_⟩
  · simp only [attentionInit, hke, hv, hr, Option.bind_some, Option.map_some]
  · simp [zerosA, ArrT5.swapDims, h2.1]
  · simp [zerosA, ArrT5.swapDims, h3.1]

/-! ### Masks -/

theorem decoderMask_4 {t : NDArray Int} {x : Fin B → Fin n → Int} (ht : Holds2 t x) {c : Option (NDArray Int)} {z : Option (Fin B → Fin n → Int)}
    (hc : SegsAre c z) {s : Option (NDArray Int)} {y : Option (Fin B → Fin n → Int)} (hs : SegsAre s y) :
    ∃ (r : NDArray Int) (M : Fin B → Fin n → Fin n → Int), makeDecoderMask t c s = some (some r) ∧
      (Holds4 r fun b (_ : Fin 1) i j => M b i j) ∧
      ∀ b, Masks.makeDecoderMask (x b) (z.map fun z => z b) (y.map fun y => y b) = some (M b) := by
  have hn := map_2 (fun t : Int => Masks.ofBool (t > 0)) ht
  obtain ⟨k, hk, h0⟩ := ArrT5.causal_4 ht
  obtain ⟨a, ha, h1⟩ := ArrT5.mask_4 hn hn Masks.multiply
  rcases hc with @⟨c, z, hc⟩ | _
  · obtain ⟨i, hi, h2⟩ := ArrT5.mask_4 hc hc Masks.logicalAnd
    obtain ⟨o, ho, h3⟩ := zip_4_4 Masks.logicalOr h0 h2
    have hpre : prefixMask k (some c) = some o := by simp only [prefixMask, hi, ho, Option.bind_some]
    rcases hs with @⟨s, y, hs⟩ | _
    · obtain ⟨g, hg, h4⟩ := ArrT5.mask_4 hs hs Masks.equal
      obtain ⟨r, hr, h5⟩ := ArrT5.combine_3 h3 h1 h4
      exact ⟨r, _, by simp only [makeDecoderMask, hk, hpre, ha, hg, Option.bind_some, hr], h5, fun b => rfl⟩
    · obtain ⟨r, hr, h5⟩ := ArrT5.combine_2 h3 h1
      exact ⟨r, _, by simp only [makeDecoderMask, hk, hpre, ha, Option.bind_some, hr], h5, fun b => rfl⟩
  · have hpre : prefixMask k none = some k := rfl
    rcases hs with @⟨s, y, hs⟩ | _
    · obtain ⟨g, hg, h4⟩ := ArrT5.mask_4 hs hs Masks.equal
      obtain ⟨r, hr, h5⟩ := ArrT5.combine_3 h0 h1 h4
      exact ⟨r, _, by simp only [makeDecoderMask, hk, hpre, ha, hg, Option.bind_some, hr], h5, fun b => rfl⟩
    · obtain ⟨r, hr, h5⟩ := ArrT5.combine_2 h0 h1
      exact ⟨r, _, by simp only [makeDecoderMask, hk, hpre, ha, Option.bind_some, hr], h5, fun b => rfl⟩

/-! ### The network -/

variable {cfg : ArrT5.Config} {p : Params} {net : DecoderOnly.LmNet d h e f V} (ex : ℝ → ℝ) (lg : ℕ → ℝ)

/-- The parameters and the network as those of a T5 model, of which only the shared parts are used. -/
def asT5 (p : Params) : ArrT5.Params := ⟨p.table, p.rel, p.layers, p.norm, p.rel, [], p.norm, p.logitsDense⟩
def netT5 (net : DecoderOnly.LmNet d h e f V) : Transformer.Net d h e f V :=
  ⟨net.eps, net.table, net.rel, net.layers, net.norm, net.rel, [], net.norm, net.head⟩

theorem asT5_are (hp : ParamsAre cfg p net) : ArrT5.Spec.ParamsAre cfg (asT5 p) (netT5 net) :=
  ⟨hp.numHeads, hp.headDim, hp.mlpDim, hp.vocabSize, hp.eps, hp.table, hp.rel, hp.layers, hp.norm, hp.rel, .nil, hp.norm, hp.head⟩

theorem toLogits_3 (hp : ParamsAre cfg p net) {y : NDArray ℝ} {x : Fin B → Fin n → Fin d → ℝ} (hy : Holds3 y x) :
    ∃ r, toLogits cfg p y = some r ∧ Holds3 r fun b i => DecoderOnly.toLogits net (x b i) :=
  ArrT5.toLogits_3 (asT5_are hp) hy

theorem finish_3 (hp : ParamsAre cfg p net) {a : ArrT5.EncLayer} {l : Transformer.EncLayer d h e f} (ha : EncIs a l) {inputs y : NDArray ℝ}
    {x z : Fin B → Fin n → Fin d → ℝ} (hx : Holds3 inputs x) (hy : Holds3 y z) :
    ∃ r, finish cfg a inputs y = some r ∧ Holds3 r fun b i => Transformer.mlpBlock net.eps l.preMlp l.mlp fun c => z b i c + x b i c := by
  obtain ⟨u, hu, h1⟩ := zip_3_3 (fun u v : ℝ => u + v) hy hx
  obtain ⟨r, hr, h2⟩ := ArrT5.mlpBlock_3 (asT5_are hp) ha.preMlp ha.mlp h1
  exact ⟨r, by simp only [finish, hu, Option.bind_some, hr], h2⟩

theorem layer_3 (hp : ParamsAre cfg p net) {a : ArrT5.EncLayer} {l : Transformer.EncLayer d h e f} (ha : EncIs a l) {mask : Option (NDArray Int)}
    {M : Option (Fin B → Fin n → Fin n → Int)} (hm : ArrT5.MaskIs mask M) {inputs : NDArray ℝ} {x : Fin B → Fin n → Fin d → ℝ}
    (hx : Holds3 inputs x) :
    ∃ r, layer ex lg cfg p.rel mask a inputs = some r ∧ Holds3 r fun b => DecoderOnly.layer ex lg net (M.map fun M => M b) (x b) l := by
  obtain ⟨bias, hb, h0⟩ := ArrT5.relativeBias_4 lg hp.rel n n false net.rel fun _ _ => rfl
  obtain ⟨y, hy, h1⟩ := ArrT5.layerNorm_3 net.eps ha.preAttention hx
  obtain ⟨z, hz, h2⟩ := ArrT5.attention_3 ex ha.attention h1 h1 hm (bias := some bias)
    (R := some fun i => Transformer.relBias lg net.rel false n i) (.some h0)
  obtain ⟨r, hr, h3⟩ := finish_3 hp ha hx h2
  have hn : inputs.shape.getD 1 0 = n := by simp [hx.1]
  refine ⟨r, by simp only [layer, hn, hb, hp.eps, hp.numHeads, hp.headDim, hy, hz, hr, Option.bind_some], h3.1, fun b i c => ?_⟩
  rw [h3.2]
  simp only [DecoderOnly.layer, Option.map_map, Option.map_some]
  rfl

theorem layers_3 (hp : ParamsAre cfg p net) {mask : Option (NDArray Int)} {M : Option (Fin B → Fin n → Fin n → Int)} (hm : ArrT5.MaskIs mask M)
    {as : List ArrT5.EncLayer} {ls : List (Transformer.EncLayer d h e f)} (hl : List.Forall₂ EncIs as ls) :
    ∀ {inputs : NDArray ℝ} {x : Fin B → Fin n → Fin d → ℝ}, Holds3 inputs x → ∃ r, layers ex lg cfg p.rel mask as inputs = some r ∧
      Holds3 r fun b => ls.foldl (DecoderOnly.layer ex lg net (M.map fun M => M b)) (x b) := by
  induction hl with
  | nil => intro inputs x hx; exact ⟨inputs, rfl, hx⟩
  | cons ha _ ih =>
    intro inputs x hx
    obtain ⟨y, hy, h1⟩ := layer_3 ex lg hp ha hm hx
    obtain ⟨r, hr, h2⟩ := ih h1
    exact ⟨r, by simp only [layers, hy, Option.bind_some, hr], h2⟩

theorem layerPrefill_3 (hp : ParamsAre cfg p net) {a : ArrT5.EncLayer} {l : Transformer.EncLayer d h e f} (ha : EncIs a l) {k : Cache}
    (hk : k.key.shape = [B, h, e, n]) (hkv : k.value.shape = [B, h, e, n]) {lengths : NDArray Nat} {len : Fin B → Nat} (hlen : Holds1 lengths len)
    {mask : Option (NDArray Int)} {M : Option (Fin B → Fin n → Fin n → Int)} (hm : ArrT5.MaskIs mask M) {inputs : NDArray ℝ}
    {x : Fin B → Fin n → Fin d → ℝ} (hx : Holds3 inputs x) :
    ∃ r k', layerPrefill ex lg cfg p.rel mask lengths a k inputs = some (r, k') ∧
      (Holds3 r fun b => DecoderOnly.layer ex lg net (M.map fun M => M b) (x b) l) ∧
      CacheIs k' fun b => DecoderOnly.prefillCache net.eps l (x b) (len b) := by
  obtain ⟨bias, hb, h0⟩ := ArrT5.relativeBias_4 lg hp.rel n n false net.rel fun _ _ => rfl
  obtain ⟨y, hy, h1⟩ := ArrT5.layerNorm_3 net.eps ha.preAttention hx
  obtain ⟨z, k', hz, h2, h3⟩ := attentionPrefill_3 ex ha.attention hk hkv hlen h1 hm (bias := some bias)
    (R := some fun i => Transformer.relBias lg net.rel false n i) (.some h0)
  obtain ⟨r, hr, h4⟩ := finish_3 hp ha hx h2
  have hn : inputs.shape.getD 1 0 = n := by simp [hx.1]
  refine ⟨r, k', by simp only [layerPrefill, hn, hb, hp.eps, hp.numHeads, hp.headDim, hy, hz, hr, Option.bind_some, Option.map_some],
    ⟨h4.1, fun b i c => ?_⟩, h3⟩
  rw [h4.2]
  simp only [DecoderOnly.layer, Option.map_map, Option.map_some]
  rfl

/-- Layers with caches of the right shape. -/
def Ready (B n : Nat) (as : List (ArrT5.EncLayer × Cache)) (ls : List (Transformer.EncLayer d h e f)) : Prop :=
  List.Forall₂ (fun (u : ArrT5.EncLayer × Cache) (l : Transformer.EncLayer d h e f) =>
    EncIs u.1 l ∧ u.2.key.shape = [B, h, e, n] ∧ u.2.value.shape = [B, h, e, n]) as ls

theorem layersPrefill_3 (hp : ParamsAre cfg p net) {lengths : NDArray Nat} {len : Fin B → Nat} (hlen : Holds1 lengths len)
    {mask : Option (NDArray Int)} {M : Option (Fin B → Fin n → Fin n → Int)} (hm : ArrT5.MaskIs mask M) {as : List (ArrT5.EncLayer × Cache)}
    {ls : List (Transformer.EncLayer d h e f)} (hl : Ready B n as ls) :
    ∀ {inputs : NDArray ℝ} {x : Fin B → Fin n → Fin d → ℝ}, Holds3 inputs x →
      ∃ r as' y, layersPrefill ex lg cfg p.rel mask lengths as inputs = some (r, as') ∧ Holds3 (m := B) (n := n) (k := d) r y ∧
        CachesAre as' fun b => DecoderOnly.prefill ex lg net (M.map fun M => M b) (len b) ls (x b) := by
  induction hl with
  | nil => intro inputs x hx; exact ⟨inputs, [], x, rfl, hx, .nil⟩
  | @cons u l as ls hu _ ih =>
    intro inputs x hx
    obtain ⟨a, k⟩ := u
    obtain ⟨ha, hk, hkv⟩ := hu
    obtain ⟨y, k', hy, h1, h2⟩ := layerPrefill_3 ex lg hp ha hk hkv hlen hm hx
    obtain ⟨r, as', z, hr, h3, h4⟩ := ih h1
    exact ⟨r, (a, k') :: as', z, by simp only [layersPrefill, hy, Option.bind_some, hr, Option.map_some], h3, .cons ha h2 h4⟩

/-- The biases in the cache, if there are any. -/
def BiasIs (lg : ℕ → ℝ) (rel : Fin h → ℤ → ℝ) (n : Nat) (cached : Option (NDArray ℝ)) : Prop :=
  ∀ b, cached = some b → Holds4 b fun (_ : Fin 1) hd (i : Fin n) (j : Fin n) => RelPos.bias lg (rel hd) false 32 i.val j.val

theorem cachedBias_4 (hp : ParamsAre cfg p net) {cached : Option (NDArray ℝ)} (hb : BiasIs lg net.rel n cached) :
    ∃ r, cachedBias lg p.rel cfg.numHeads n cached = some r ∧ BiasIs lg net.rel n (some r) := by
  cases cached with
  | some b =>
    refine ⟨b, ?_, hb⟩
    have := (hb b rfl).1
    simp only [cachedBias, hp.numHeads, this, if_true]
  | none =>
    obtain ⟨r, hr, h0⟩ := ArrT5.relativeBias_4 lg hp.rel n n false net.rel fun _ _ => rfl
    exact ⟨r, hr, fun b hb => by cases hb; exact h0⟩

theorem layersInit_3 (hp : ParamsAre cfg p net) {as : List ArrT5.EncLayer} {ls : List (Transformer.EncLayer d h e f)} (hl : List.Forall₂ EncIs as ls) :
    ∀ {cached : Option (NDArray ℝ)} {inputs : NDArray ℝ} {x : Fin B → Fin n → Fin d → ℝ}, BiasIs lg net.rel n cached → Holds3 inputs x →
      ∃ r vars y, layersInit ex lg cfg p.rel cached as inputs = some (r, vars) ∧ Holds3 (m := B) (n := n) (k := d) r y ∧
        Ready B n vars.layers ls ∧ BiasIs lg net.rel n vars.bias := by
  induction hl with
  | nil => intro cached inputs x hb hx; exact ⟨inputs, ⟨[], cached⟩, x, rfl, hx, .nil, hb⟩
  | @cons a l as ls ha _ ih =>
    intro cached inputs x hb hx
    obtain ⟨bias, hbias, h0⟩ := cachedBias_4 lg hp hb
    obtain ⟨y, hy, h1⟩ := ArrT5.layerNorm_3 net.eps ha.preAttention hx
    obtain ⟨z, k, zz, hz, h2, hk, hkv⟩ := attentionInit_3 ex ha.attention h1 (bias := bias)
      (R := fun i => Transformer.relBias lg net.rel false n i) (h0 bias rfl)
    obtain ⟨u, hu, h3⟩ := finish_3 hp ha hx h2
    obtain ⟨r, vars, w, hr, h4, h5, h6⟩ := ih h0 h3
    have hn : inputs.shape.getD 1 0 = n := by simp [hx.1]
    refine ⟨r, ⟨(a, k) :: vars.layers, vars.bias⟩, w, ?_, h4, .cons ⟨ha, hk, hkv⟩ h5, h6⟩
    have hstep : layerInit ex lg cfg p.rel cached a inputs = some (u, k, bias) := by
      rw [hp.numHeads] at hbias
      simp only [layerInit, hn, hp.eps, hp.numHeads, hp.headDim, hbias, hy, hz, hu, Option.bind_some, Option.map_some]
    simp only [layersInit, hstep, Option.bind_some, hr, Option.map_some]

theorem layersStep_3 (hp : ParamsAre cfg p net) {as : List (ArrT5.EncLayer × Cache)}
    {cs : Fin B → List (Transformer.EncLayer d h e f × KVCache.Cache h e L)} (hc : CachesAre as cs) :
    ∀ {cached : Option (NDArray ℝ)} {inputs : NDArray ℝ} {x : Fin B → Fin 1 → Fin d → ℝ}, BiasIs lg net.rel L cached → Holds3 inputs x →
      ∃ r vars, layersStep ex lg cfg p.rel L cached as inputs = some (r, vars) ∧
        (Holds3 r fun b i => (DecoderOnly.stackStep ex lg net (cs b) (x b i)).1) ∧
        (CachesAre vars.layers fun b => (DecoderOnly.stackStep ex lg net (cs b) (x b 0)).2) ∧ BiasIs lg net.rel L vars.bias := by
  induction hc with
  | nil => intro cached inputs x hb hx; exact ⟨inputs, ⟨[], cached⟩, rfl, hx, .nil, hb⟩
  | @cons a l k c as cs ha hc _ ih =>
    intro cached inputs x hb hx
    obtain ⟨bias, hbias, h0⟩ := cachedBias_4 lg hp hb
    obtain ⟨y, hy, h1⟩ := ArrT5.layerNorm_3 net.eps ha.preAttention hx
    obtain ⟨z, k', hz, h2, h3⟩ := attentionStep_3 ex ha.attention hc h1 (bias := bias)
      (rel := fun hd i j => RelPos.bias lg (net.rel hd) false 32 i j) (h0 bias rfl)
    obtain ⟨u, hu, h4⟩ := finish_3 hp ha hx h2
    have hstep : layerStep ex lg cfg p.rel L cached a k inputs = some (u, k', bias) := by
      rw [hp.numHeads] at hbias
      simp only [layerStep, hp.numHeads, hbias, hp.eps, hp.headDim, hy, hz, hu, Option.bind_some, Option.map_some]
    obtain ⟨r, vars, hr, h5, h6, h7⟩ := ih h0 h4
    refine ⟨r, ⟨(a, k') :: vars.layers, vars.bias⟩, by simp only [layersStep, hstep, Option.bind_some, hr, Option.map_some], ⟨h5.1, fun b i c => ?_⟩,
      .cons ha h3 h6, h7⟩
    rw [h5.2]
    have hi : i = 0 := Subsingleton.elim _ _
    subst hi
    rfl

theorem step_3 (hp : ParamsAre cfg p net) {vars : Vars} {cs : Fin B → List (Transformer.EncLayer d h e f × KVCache.Cache h e L)}
    (hc : CachesAre vars.layers cs) (hb : BiasIs lg net.rel L vars.bias) {tokens : NDArray Int} {u : Fin B → Int}
    (hu : Holds2 tokens fun b (_ : Fin 1) => u b) :
    ∃ r vars', step ex lg cfg p L vars tokens = some (r, vars') ∧
      (Holds3 r fun b (_ : Fin 1) => (DecoderOnly.step ex lg net (cs b) (u b)).1) ∧
      (CachesAre vars'.layers fun b => (DecoderOnly.step ex lg net (cs b) (u b)).2) ∧ BiasIs lg net.rel L vars'.bias := by
  obtain ⟨x, hx, h2⟩ := ArrT5.embed_3 hp.table hu
  obtain ⟨z, vars', hz, h3, h4, h5⟩ := layersStep_3 ex lg hp hc hb h2
  obtain ⟨r, hr, h6⟩ := toLogits_3 hp h3
  have hl : tokens.shape.length = 2 := by simp [hu.1]
  exact ⟨r, vars', by simp only [step, hl, if_true, hx, Option.bind_some, hz, hr, Option.map_some], ⟨h6.1, h6.2⟩, h4, h5⟩

end Verif.ArrLm
