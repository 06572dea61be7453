import Verif.Lemmas.ArrayOps
import Verif.Model.ArrayT5
import Verif.Model.T5Decode
/-
Every layer on arrays computes, in every row of the batch, what the row-wise model computes.
-/
namespace Verif.ArrT5
open Verif.ND Verif.Arr Verif.ArrT5.Spec

variable {B n m d h e f V : Nat}

/-- The axes -k, …, -1. -/
def lastAxes (k : Nat) : List Int := (List.range k).map fun j : Nat => (j : Int) - k

theorem normAxes_last (p k : Nat) : ∀ j, j ≤ k →
    normAxes (p + k) ((List.range' (k - j) j).map fun i : Nat => (i : Int) - k) = some (List.range' (p + (k - j)) j) := by
  intro j
  induction j with
  | zero => intro _; rfl
  | succ j ih =>
    intro hj
    have e1 : k - (j + 1) + 1 = k - j := by omega
    have hn : normAxis (p + k) (((k - (j + 1) : Nat) : Int) - k) = some (p + (k - (j + 1))) := by
      have hk : ¬ (((k - (j + 1) : Nat) : Int) - k ≥ 0) := by omega
      simp only [normAxis, hk, if_false]
      rw [if_pos (by omega)]
      congr 1; omega
    rw [List.range'_succ, List.map_cons, normAxes, hn, Option.bind_some, e1, ih (by omega), Option.map_some, List.range'_succ]
    congr 3; omega

theorem normAxes_lastAxes (p k : Nat) : normAxes (p + k) (lastAxes k) = some (List.range' p k) := by
  have := normAxes_last p k k le_rfl
  rw [Nat.sub_self, ← List.range_eq_range'] at this
  simpa [lastAxes] using this

/-- `DenseGeneral` over the last axes, for any rank: the product of the flattened contracted dimensions with the 2-D kernel. -/
theorem dense_flat (lead con feat : List Nat) (kernel inputs : NDArray ℝ) (hi : inputs.shape = lead ++ con)
    (hk : kernel.shape = [con.prod, feat.prod]) :
    ∃ r, denseGeneral feat (lastAxes con.length) kernel inputs = some r ∧ r.shape = lead ++ feat ∧
      ∀ l g, l.length = lead.length → InBox feat g →
        r.get (l ++ g) = ∑ j ∈ Finset.range con.prod, inputs.get (l ++ unravel con j) * kernel.get [j, ravel feat g] := by
  have e1 : inputs.shape.length = lead.length + con.length := by simp [hi]
  have hrs : reshape kernel (con ++ feat) = some ⟨con ++ feat, fun i => kernel.get (unravel kernel.shape (ravel (con ++ feat) i))⟩ := by
    unfold reshape; rw [if_pos]; simp [hk]
  obtain ⟨r, h1, h2, h3⟩ := dot_flat inputs ⟨con ++ feat, fun i => kernel.get (unravel kernel.shape (ravel (con ++ feat) i))⟩ lead con feat hi rfl
  refine ⟨r, ?_, h2, ?_⟩
  · rw [hk] at h1
    simp only [denseGeneral, List.length_append, normAxes_lastAxes, Option.bind_some, hi, sizes_range'_append, hk, if_true, hrs, List.length_range', h1]
  · intro l g hl hg
    rw [h3 l g hl hg.length]
    refine Finset.sum_congr rfl fun j hj => ?_
    have hj := Finset.mem_range.1 hj
    congr 1
    show kernel.get (unravel kernel.shape (ravel (con ++ feat) (unravel con j ++ g))) = _
    congr 1
    have hg' := ravel_lt hg
    have hp : 0 < feat.prod := by omega
    rw [ravel_append (unravel_length _ _), ravel_unravel _ _ hj, hk]
    simp only [unravel, List.prod_cons, List.prod_nil, Nat.mul_one, Nat.div_one]
    rw [Nat.add_comm, Nat.add_mul_div_right _ _ hp, Nat.div_eq_of_lt hg', Nat.add_mul_mod_self_right, Nat.mod_eq_of_lt hg', Nat.zero_add]

theorem dense_box (lead con feat : List Nat) (kernel inputs : NDArray ℝ) (hi : inputs.shape = lead ++ con)
    (hk : kernel.shape = [con.prod, feat.prod]) :
    ∃ r, denseGeneral feat (lastAxes con.length) kernel inputs = some r ∧ r.shape = lead ++ feat ∧
      ∀ l g, l.length = lead.length → InBox feat g →
        r.get (l ++ g) = sumBox con fun c => inputs.get (l ++ c) * kernel.get [ravel con c, ravel feat g] := by
  obtain ⟨r, h1, h2, h3⟩ := dense_flat lead con feat kernel inputs hi hk
  refine ⟨r, h1, h2, fun l g hl hg => ?_⟩
  rw [h3 l g hl hg, sumBox_flat]
  refine Finset.sum_congr rfl fun j hj => ?_
  rw [ravel_unravel _ _ (Finset.mem_range.1 hj)]

theorem dense_3 {inputs kernel : NDArray ℝ} {x : Fin B → Fin n → Fin d → ℝ} {w : Fin d → Fin m → ℝ} (hi : Holds3 inputs x)
    (hk : Holds2 kernel w) :
    ∃ r, denseGeneral [m] [-1] kernel inputs = some r ∧ Holds3 r fun b i => Transformer.dense w (x b i) := by
  obtain ⟨r, h1, h2, h3⟩ := dense_box [B, n] [d] [m] kernel inputs hi.1 (by simp [hk.1])
  refine ⟨r, h1, h2, fun b i c => ?_⟩
  have := h3 [b.val, i.val] [c.val] rfl (by simp [InBox])
  simp only [List.cons_append, List.nil_append, sumBox, Finset.sum_range] at this
  rw [this]
  unfold Transformer.dense
  refine Finset.sum_congr rfl fun k _ => ?_
  simp only [ravel, List.prod_nil, Nat.mul_one, Nat.add_zero]
  rw [hi.2, hk.2]

theorem project_3 {inputs kernel : NDArray ℝ} {x : Fin B → Fin n → Fin d → ℝ} {w : Fin d → Fin (h * e) → ℝ} (hi : Holds3 inputs x)
    (hk : Holds2 kernel w) :
    ∃ r, denseGeneral [h, e] [-1] kernel inputs = some r ∧ Holds4 r fun b i => Transformer.project w (x b i) := by
  obtain ⟨r, h1, h2, h3⟩ := dense_box [B, n] [d] [h, e] kernel inputs hi.1 (by simp [hk.1])
  refine ⟨r, h1, h2, fun b i hd c => ?_⟩
  have := h3 [b.val, i.val] [hd.val, c.val] rfl (by simp [InBox])
  simp only [List.cons_append, List.nil_append, sumBox, Finset.sum_range] at this
  rw [this]
  unfold Transformer.project
  refine Finset.sum_congr rfl fun k _ => ?_
  simp only [ravel, List.prod_nil, List.prod_cons, Nat.mul_one, Nat.add_zero]
  have hj : hd.val * e + c.val = (Transformer.joined hd c).val := by
    simp [Transformer.joined, finProdFinEquiv, Nat.mul_comm, Nat.add_comm]
  rw [hi.2, hj, hk.2]

theorem projectOut_4 {inputs kernel : NDArray ℝ} {y : Fin B → Fin n → Fin h → Fin e → ℝ} {w : Fin (h * e) → Fin d → ℝ} (hi : Holds4 inputs y)
    (hk : Holds2 kernel w) :
    ∃ r, denseGeneral [d] [-2, -1] kernel inputs = some r ∧ Holds3 r fun b i => Transformer.projectOut w (y b i) := by
  obtain ⟨r, h1, h2, h3⟩ := dense_box [B, n] [h, e] [d] kernel inputs hi.1 (by simp [hk.1])
  refine ⟨r, h1, h2, fun b i c => ?_⟩
  have := h3 [b.val, i.val] [c.val] rfl (by simp [InBox])
  simp only [List.cons_append, List.nil_append, sumBox, Finset.sum_range] at this
  rw [this]
  unfold Transformer.projectOut
  refine Finset.sum_congr rfl fun hd _ => Finset.sum_congr rfl fun a _ => ?_
  simp only [ravel, List.prod_nil, List.prod_cons, Nat.mul_one, Nat.add_zero]
  have hj : hd.val * e + a.val = (Transformer.joined hd a).val := by
    simp [Transformer.joined, finProdFinEquiv, Nat.mul_comm, Nat.add_comm]
  rw [hi.2, hj, hk.2]

theorem layerNorm_3 (eps : ℝ) {scale inputs : NDArray ℝ} {s : Fin d → ℝ} {x : Fin B → Fin n → Fin d → ℝ} (hs : Holds1 scale s)
    (hi : Holds3 inputs x) : ∃ r, layerNorm eps scale inputs = some r ∧ Holds3 r fun b i => Transformer.layerNorm eps s (x b i) := by
  have hm : Holds3 (meanLast (mapA (fun v => v ^ 2) inputs)) fun b i (_ : Fin 1) => (∑ k, x b i k ^ 2) / d := by
    refine ⟨by simp [meanLast, mapA, hi.1, setLast], fun b i c => ?_⟩
    simp only [meanLast, mapA, hi.1, setLast]
    simp [Finset.sum_range, hi.2]
  obtain ⟨y, hy, h1⟩ := zip_3_keep (fun v m : ℝ => v * m) hi (map_3 (fun v => (√(v + eps))⁻¹) hm)
  obtain ⟨z, hz, h2⟩ := zip_3_1 (fun v s : ℝ => v * s) h1 hs
  refine ⟨z, ?_, h2⟩
  simp only [layerNorm, hy, Option.bind_some, hi.1, hs.1]
  simpa using hz

theorem dot_3_2 {a b : NDArray ℝ} {x : Fin B → Fin n → Fin d → ℝ} {w : Fin d → Fin m → ℝ} (ha : Holds3 a x) (hb : Holds2 b w) :
    ∃ r, dotGeneral a b [a.shape.length - 1] [0] = some r ∧ Holds3 r fun i j k => ∑ c, x i j c * w c k := by
  obtain ⟨r, h1, h2, h3⟩ := dot_flat a b [B, n] [d] [m] ha.1 hb.1
  refine ⟨r, by simpa [ha.1] using h1, h2, fun i j k => ?_⟩
  have := h3 [i.val, j.val] [k.val] rfl rfl
  rw [← sumBox_flat [d] fun c => a.get ([i.val, j.val] ++ c) * b.get (c ++ [k.val])] at this
  simp only [List.cons_append, List.nil_append, sumBox, Finset.sum_range] at this
  rw [this]
  exact Finset.sum_congr rfl fun c _ => by rw [ha.2, hb.2]

theorem embed_3 {table : NDArray ℝ} {w : Fin V → Fin d → ℝ} {tokens : NDArray Int} {t : Fin B → Fin n → Int} (ht : Holds2 table w)
    (hi : Holds2 tokens t) : ∃ r, embed table tokens = some r ∧ Holds3 r fun b i => Transformer.embed w (t b i) := by
  obtain ⟨x, hx, h1⟩ := expand_2_m1 hi
  obtain ⟨o, ho, h2⟩ := zip_31_1 (fun t v : Int => if t = v then (1 : ℝ) else 0) h1 (arange_1 V)
  obtain ⟨r, hr, h3⟩ := dot_3_2 h2 ht
  refine ⟨r, ?_, h3⟩
  have hV : table.shape.getD 0 0 = V := by simp [ht.1]
  simp only [embed, hx, Option.bind_some, hV, ho, hr]

theorem attend_3 {table query : NDArray ℝ} {w : Fin V → Fin d → ℝ} {y : Fin B → Fin n → Fin d → ℝ} (ht : Holds2 table w) (hi : Holds3 query y) :
    ∃ r, attendA table query = some r ∧ Holds3 r fun b i => Transformer.attendEmbedding w (y b i) := by
  obtain ⟨t, h1, h2⟩ := transpose_2 ht
  obtain ⟨r, hr, h3⟩ := dot_3_2 hi h2
  exact ⟨r, by simp only [attendA, h1, Option.bind_some, hr], h3⟩


theorem sum_listRange (k : Nat) (g : Nat → ℝ) : ((List.range k).map g).sum = ∑ i ∈ Finset.range k, g i := by
  induction k with
  | zero => simp
  | succ k ih => rw [List.range_succ, List.map_append, List.sum_append, ih, Finset.sum_range_succ]; simp

theorem relativeBias_4 (lg : ℕ → ℝ) {rel : NDArray ℝ} {w : Fin h → Fin 32 → ℝ} (hw : Holds2 rel w) (q k : Nat) (bidirectional : Bool)
    (emb : Fin h → ℤ → ℝ) (hemb : ∀ hd (v : Fin 32), emb hd (v.val : ℤ) = w hd v) :
    ∃ r, relativeBias lg rel q k bidirectional = some r ∧
      Holds4 r fun (_ : Fin 1) hd (i : Fin q) (j : Fin k) => RelPos.bias lg (emb hd) bidirectional 32 i.val j.val := by
  obtain ⟨c, hc, h1⟩ := expand_1_1 (arange_1 q)
  obtain ⟨mm, hm, h2⟩ := expand_1_0 (arange_1 k)
  obtain ⟨p, hp, h3⟩ := zip_grid (fun m c : Int => m - c) h2 h1
  obtain ⟨b, hb, h4⟩ := expand_2_0 (map_2 (fun r => RelPos.bucket lg r bidirectional 32) h3)
  have hio : Holds3 (⟨[32, 1, 1], fun i => ((i.getD 0 0 : Nat) : Int)⟩ : NDArray Int) fun (v : Fin 32) (_ _ : Fin 1) => (v.val : Int) :=
    ⟨rfl, fun i j l => by simp⟩
  obtain ⟨o, ho, h5⟩ := zip_buckets (fun b i : Int => if b = i then (1 : ℝ) else 0) h4 hio
  obtain ⟨v, hv, h6, h7⟩ := dot_flat rel o [h] [32] [q, k] hw.1 h5.1
  have h8 : Holds3 v fun hd (i : Fin q) (j : Fin k) => RelPos.bias lg (emb hd) bidirectional 32 i.val j.val := by
    refine ⟨h6, fun hd i j => ?_⟩
    have := h7 [hd.val] [i.val, j.val] rfl rfl
    rw [← sumBox_flat [32] fun c => rel.get ([hd.val] ++ c) * o.get (c ++ [i.val, j.val])] at this
    simp only [List.cons_append, List.nil_append, sumBox] at this
    rw [this]
    unfold RelPos.bias
    beta_reduce
    rw [sum_listRange]
    refine Finset.sum_congr rfl fun v hv => ?_
    have hv := Finset.mem_range.1 hv
    have e1 := hw.2 hd ⟨v, hv⟩
    have e2 := h5.2 ⟨v, hv⟩ i j
    simp only at e1 e2
    rw [e1, e2, ← hemb]
  obtain ⟨r, hr, h9⟩ := expand_3_0 h8
  refine ⟨r, ?_, h9⟩
  have hv' : dotGeneral rel o [1] [0] = some v := by simpa using hv
  simp only [relativeBias, hc, hm, hp, hb, ho, hv', hr, Option.bind_some]

/-! ### Attention -/

theorem einsum_logits {q k : NDArray ℝ} {x : Fin B → Fin n → Fin h → Fin e → ℝ} {y : Fin B → Fin m → Fin h → Fin e → ℝ} (hq : Holds4 q x)
    (hk : Holds4 k y) : ∃ r, einsum ['b', 'q', 'h', 'd'] ['b', 'k', 'h', 'd'] ['b', 'h', 'q', 'k'] q k = some r ∧
      Holds4 r fun b hd i j => ∑ c, x b i hd c * y b j hd c := by
  refine ⟨_, by
    simp [einsum, hq.1, hk.1, labelOf, List.lookup, List.dedup_cons_of_notMem]; rfl, ?_⟩
  refine ⟨rfl, fun b hd i j => ?_⟩
  simp only [sumBox, List.zip_cons_cons, List.zip_nil_right, List.zip_nil_left, List.cons_append, List.nil_append, List.lookup, Finset.sum_range]
  refine Finset.sum_congr rfl fun c _ => ?_
  rw [← hq.2 b i hd c, ← hk.2 b j hd c]
  rfl

theorem einsum_values {w v : NDArray ℝ} {x : Fin B → Fin h → Fin n → Fin m → ℝ} {y : Fin B → Fin m → Fin h → Fin e → ℝ} (hw : Holds4 w x)
    (hv : Holds4 v y) : ∃ r, einsum ['b', 'h', 'q', 'k'] ['b', 'k', 'h', 'd'] ['b', 'q', 'h', 'd'] w v = some r ∧
      Holds4 r fun b i hd c => ∑ j, x b hd i j * y b j hd c := by
  refine ⟨_, by
    simp [einsum, hw.1, hv.1, labelOf, List.lookup, List.dedup_cons_of_notMem]; rfl, ?_⟩
  refine ⟨rfl, fun b i hd c => ?_⟩
  simp only [sumBox, List.zip_cons_cons, List.zip_nil_right, List.zip_nil_left, List.cons_append, List.nil_append, List.lookup, Finset.sum_range]
  refine Finset.sum_congr rfl fun j _ => ?_
  rw [← hw.2 b hd i j, ← hv.2 b j hd c]
  rfl

theorem softmax_4 (ex : ℝ → ℝ) {a : NDArray ℝ} {w : Fin B → Fin h → Fin n → Fin m → ℝ} (ha : Holds4 a w) :
    Holds4 (softmaxLast ex a) fun b hd i j => Transformer.softmax ex (w b hd i) j := by
  obtain ⟨sh, g⟩ := a
  obtain ⟨h1, h2⟩ := ha
  simp only at h1 h2
  subst h1
  refine ⟨rfl, fun b hd i j => ?_⟩
  have hs : (⨆ k : Fin m, g [b.val, hd.val, i.val, k.val]) = ⨆ k, w b hd i k := iSup_congr fun k => h2 b hd i k
  change ex (g [b.val, hd.val, i.val, j.val] - ⨆ k : Fin m, g [b.val, hd.val, i.val, k.val]) /
    ∑ k ∈ Finset.range m, ex (g [b.val, hd.val, i.val, k] - ⨆ k : Fin m, g [b.val, hd.val, i.val, k.val]) = _
  rw [hs, h2, Finset.sum_range]
  simp only [h2]
  rfl

theorem attention_weights {w : NDArray ℝ} {x : Fin B → Fin h → Fin n → Fin m → ℝ} (hw : Holds4 w x) {mask : Option (NDArray Int)}
    {M : Option (Fin B → Fin n → Fin m → Int)}
    (hm : Option.Rel (fun (a : NDArray Int) (M : Fin B → Fin n → Fin m → Int) => Holds4 a fun b (_ : Fin 1) i j => M b i j) mask M)
    {bias : Option (NDArray ℝ)} {R : Option (Fin n → Fin h → Fin m → ℝ)}
    (hb : Option.Rel (fun (a : NDArray ℝ) (R : Fin n → Fin h → Fin m → ℝ) => Holds4 a fun (_ : Fin 1) hd i j => R i hd j) bias R) :
    ∃ total r, attentionBias mask bias = some total ∧ addBias w total = some r ∧
      Holds4 r fun b hd i j => x b hd i j + Transformer.totalBias (M.map fun M => M b i) (R.map fun R => R i) hd j := by
  rcases hm with @⟨a, M, ha⟩ | _ <;> rcases hb with @⟨c, R, hc⟩ | _
  · obtain ⟨t, ht, h1⟩ := zip_mask_bias (fun u v : ℝ => u + v) (map_4 (fun m => if m > 0 then (0 : ℝ) else -1e10) ha) hc
    obtain ⟨r, hr, h2⟩ := zip_4_4 (fun u v : ℝ => u + v) hw h1
    refine ⟨some t, r, ?_, hr, ?_⟩
    · have hl : (mapA (fun m : Int => if m > 0 then (0 : ℝ) else -1e10) a).shape = [B, 1, n, m] := ha.1
      simp [attentionBias, combineBiases, hl, hc.1, combine, ht]
    · exact h2
  · obtain ⟨r, hr, h2⟩ := zip_4_mask (fun u v : ℝ => u + v) hw (map_4 (fun m => if m > 0 then (0 : ℝ) else -1e10) ha)
    exact ⟨_, r, rfl, hr, h2⟩
  · obtain ⟨r, hr, h2⟩ := zip_4_bias (fun u v : ℝ => u + v) hw hc
    exact ⟨some c, r, by simp [attentionBias, combineBiases, combine], hr, h2⟩
  · exact ⟨none, w, rfl, rfl, hw.1, fun b hd i j => by simp [Transformer.totalBias, hw.2]⟩

theorem attendOut_4 (ex : ℝ → ℝ) {p : Attn} {out : Fin (h * e) → Fin d → ℝ} (hp : Holds2 p.out out) {query key value : NDArray ℝ}
    {q : Fin B → Fin n → Fin h → Fin e → ℝ} {k v : Fin B → Fin m → Fin h → Fin e → ℝ} (hq : Holds4 query q) (hk : Holds4 key k)
    (hv : Holds4 value v) {mask : Option (NDArray Int)} {M : Option (Fin B → Fin n → Fin m → Int)}
    (hm : Option.Rel (fun (a : NDArray Int) (M : Fin B → Fin n → Fin m → Int) => Holds4 a fun b (_ : Fin 1) i j => M b i j) mask M)
    {bias : Option (NDArray ℝ)} {R : Option (Fin n → Fin h → Fin m → ℝ)}
    (hb : Option.Rel (fun (a : NDArray ℝ) (R : Fin n → Fin h → Fin m → ℝ) => Holds4 a fun (_ : Fin 1) hd i j => R i hd j) bias R) :
    ∃ r, attendOut ex p query key value mask bias d = some r ∧ Holds3 r fun b i => Transformer.projectOut out fun hd c =>
      ∑ j, Transformer.softmax ex (Transformer.logitsOf (q b i) (k b) (M.map fun M => M b i) (R.map fun R => R i) hd) j * v b j hd c := by
  obtain ⟨w, hw, h1⟩ := einsum_logits hq hk
  obtain ⟨total, u, ht, hu, h2⟩ := attention_weights h1 hm hb
  obtain ⟨y, hy, h3⟩ := einsum_values (softmax_4 ex h2) hv
  obtain ⟨r, hr, h4⟩ := projectOut_4 h3 hp
  refine ⟨r, ?_, h4⟩
  simp only [attendOut, dotProductAttention, ht, Option.bind_some, hw, hu, hy, hr]

theorem attention_3 (ex : ℝ → ℝ) {a : Attn} {p : Transformer.Attn d h e} (hp : AttnIs a p) {inputsQ inputsKV : NDArray ℝ}
    {x : Fin B → Fin n → Fin d → ℝ} {y : Fin B → Fin m → Fin d → ℝ} (hx : Holds3 inputsQ x) (hy : Holds3 inputsKV y)
    {mask : Option (NDArray Int)} {M : Option (Fin B → Fin n → Fin m → Int)}
    (hm : Option.Rel (fun (a : NDArray Int) (M : Fin B → Fin n → Fin m → Int) => Holds4 a fun b (_ : Fin 1) i j => M b i j) mask M)
    {bias : Option (NDArray ℝ)} {R : Option (Fin n → Fin h → Fin m → ℝ)}
    (hb : Option.Rel (fun (a : NDArray ℝ) (R : Fin n → Fin h → Fin m → ℝ) => Holds4 a fun (_ : Fin 1) hd i j => R i hd j) bias R) :
    ∃ r, attention ex h e a inputsQ inputsKV mask bias = some r ∧
      Holds3 r fun b i => Transformer.attention ex p (x b i) (y b) (M.map fun M => M b i) (R.map fun R => R i) := by
  obtain ⟨q, hq, h1⟩ := project_3 hx hp.query
  obtain ⟨k, hk, h2⟩ := project_3 hy hp.key
  obtain ⟨v, hv, h3⟩ := project_3 hy hp.value
  obtain ⟨r, hr, h4⟩ := attendOut_4 ex hp.out h1 h2 h3 hm hb
  have hd : inputsQ.shape.getLastD 1 = d := by simp [hx.1]
  exact ⟨r, by simp only [attention, hq, hk, hv, Option.bind_some, hd, hr], h4⟩

/-! ### MLP -/

theorem activation_3 {u : (ℝ → ℝ) × NDArray ℝ} {w : (ℝ → ℝ) × Transformer.Kernel d f} (hu : u.1 = w.1 ∧ Holds2 u.2 w.2) {inputs : NDArray ℝ}
    {x : Fin B → Fin n → Fin d → ℝ} (hx : Holds3 inputs x) :
    ∃ r, activation f u inputs = some r ∧ Holds3 r fun b i => Transformer.activation w (x b i) := by
  obtain ⟨r, hr, h1⟩ := dense_3 hx hu.2
  exact ⟨mapA u.1 r, by simp only [activation, hr, Option.map_some], by rw [hu.1]; exact map_3 w.1 h1⟩

theorem products_3 {inputs : NDArray ℝ} {x : Fin B → Fin n → Fin d → ℝ} (hx : Holds3 inputs x) {us : List ((ℝ → ℝ) × NDArray ℝ)}
    {ws : List ((ℝ → ℝ) × Transformer.Kernel d f)}
    (h : List.Forall₂ (fun (u : (ℝ → ℝ) × NDArray ℝ) (w : (ℝ → ℝ) × Transformer.Kernel d f) => u.1 = w.1 ∧ Holds2 u.2 w.2) us ws) :
    ∀ {acc : NDArray ℝ} {z : Fin B → Fin n → Transformer.Vec f}, Holds3 acc z → ∃ r, products f inputs acc us = some r ∧
      Holds3 r fun b i => ws.foldl (fun (acc : Transformer.Vec f) w => fun j => acc j * Transformer.activation w (x b i) j) (z b i) := by
  induction h with
  | nil => intro acc z hz; exact ⟨acc, rfl, hz⟩
  | @cons u w us ws hu _ ih =>
    intro acc z hz
    obtain ⟨y, hy, h1⟩ := activation_3 hu hx
    obtain ⟨a, ha, h2⟩ := zip_3_3 (fun u v : ℝ => u * v) hz h1
    obtain ⟨r, hr, h3⟩ := ih h2
    exact ⟨r, by simp only [products, hy, Option.bind_some, ha, hr], h3⟩

theorem mlp_3 {a : Mlp} {p : Transformer.Mlp d f} (hp : MlpIs a p) {inputs : NDArray ℝ} {x : Fin B → Fin n → Fin d → ℝ} (hx : Holds3 inputs x) :
    ∃ r, mlp f a inputs = some r ∧ Holds3 r fun b i => Transformer.mlp p (x b i) := by
  obtain ⟨y, hy, h1⟩ := activation_3 hp.first hx
  obtain ⟨z, hz, h2⟩ := products_3 hx hp.others h1
  obtain ⟨r, hr, h3⟩ := dense_3 h2 hp.wo
  have hd : inputs.shape.getLastD 1 = d := by simp [hx.1]
  exact ⟨r, by simp only [mlp, hy, Option.bind_some, hz, hd, hr], h3⟩

/-! ### Masks -/

theorem mask_4 {q k : NDArray Int} {x : Fin B → Fin n → Int} {y : Fin B → Fin m → Int} (hq : Holds2 q x) (hk : Holds2 k y)
    (g : Int → Int → Int) :
    ∃ r, makeAttentionMask q k g = some r ∧ Holds4 r fun b (_ : Fin 1) i j => Masks.makeAttentionMask (x b) (y b) g i j := by
  obtain ⟨a, ha, h1⟩ := expand_2_m1 hq
  obtain ⟨c, hc, h2⟩ := expand_2_m2 hk
  obtain ⟨p, hp, h3⟩ := zip_outer g h1 h2
  obtain ⟨r, hr, h4⟩ := expand_3_m3 h3
  exact ⟨r, by simp only [makeAttentionMask, ha, hc, hp, hr, Option.bind_some], h4⟩

theorem causal_4 {t : NDArray Int} {x : Fin B → Fin n → Int} (ht : Holds2 t x) :
    ∃ r, makeCausalMask t = some r ∧ Holds4 r fun (_ : Fin B) (_ : Fin 1) i j => Masks.makeCausalMask n i j := by
  obtain ⟨a, ha, h1⟩ := broadcast_rows (arange_1 n) B
  obtain ⟨r, hr, h2⟩ := mask_4 h1 h1 Masks.greaterEqual
  exact ⟨r, by simp only [makeCausalMask, ht.1]; simpa [ha] using hr, h2⟩

theorem combine_2 {a c : NDArray Int} {x y : Fin B → Fin n → Fin m → Int} (ha : Holds4 a fun b (_ : Fin 1) i j => x b i j)
    (hc : Holds4 c fun b (_ : Fin 1) i j => y b i j) :
    ∃ r, combineMasks [some a, some c] = some (some r) ∧ Holds4 r fun b (_ : Fin 1) i j => Masks.logicalAnd (x b i j) (y b i j) := by
  obtain ⟨r, hr, h1⟩ := zip_4_4 Masks.logicalAnd ha hc
  exact ⟨r, by simp [combineMasks, combine, hr, ha.1, hc.1], h1⟩

theorem combine_3 {a c s : NDArray Int} {x y z : Fin B → Fin n → Fin m → Int} (ha : Holds4 a fun b (_ : Fin 1) i j => x b i j)
    (hc : Holds4 c fun b (_ : Fin 1) i j => y b i j) (hs : Holds4 s fun b (_ : Fin 1) i j => z b i j) :
    ∃ r, combineMasks [some a, some c, some s] = some (some r) ∧
      Holds4 r fun b (_ : Fin 1) i j => Masks.logicalAnd (Masks.logicalAnd (x b i j) (y b i j)) (z b i j) := by
  obtain ⟨r, hr, h1⟩ := zip_4_4 Masks.logicalAnd ha hc
  obtain ⟨u, hu, h2⟩ := zip_4_4 Masks.logicalAnd h1 hs
  exact ⟨u, by simp [combineMasks, combine, hr, hu, ha.1, hc.1, hs.1], h2⟩

theorem encoderMask_4 {t : NDArray Int} {x : Fin B → Fin m → Int} (ht : Holds2 t x) {s : Option (NDArray Int)} {y : Option (Fin B → Fin m → Int)}
    (hs : SegsAre s y) : ∃ (r : NDArray Int) (M : Fin B → Fin m → Fin m → Int), encoderMask t s = some (some r) ∧ (Holds4 r fun b (_ : Fin 1) i j => M b i j) ∧
      ∀ b, Masks.makeEncoderMask (x b) (y.map fun y => y b) = some (M b) := by
  have hn := map_2 (fun t : Int => Masks.ofBool (t > 0)) ht
  obtain ⟨a, ha, h1⟩ := mask_4 hn hn Masks.multiply
  rcases hs with @⟨s, y, hs⟩ | _
  · obtain ⟨c, hc, h2⟩ := mask_4 hs hs Masks.equal
    obtain ⟨r, hr, h3⟩ := combine_2 h1 h2
    exact ⟨r, _, by simp only [encoderMask, ha, hc, Option.bind_some, hr], h3, fun b => rfl⟩
  · exact ⟨a, _, by simp only [encoderMask, ha, Option.bind_some], h1, fun b => rfl⟩

theorem decoderMask_4 {t : NDArray Int} {x : Fin B → Fin n → Int} (ht : Holds2 t x) {s : Option (NDArray Int)} {y : Option (Fin B → Fin n → Int)}
    (hs : SegsAre s y) : ∃ (r : NDArray Int) (M : Fin B → Fin n → Fin n → Int), makeDecoderMask t s = some (some r) ∧ (Holds4 r fun b (_ : Fin 1) i j => M b i j) ∧
      ∀ b, Masks.makeDecoderMask (x b) none (y.map fun y => y b) = some (M b) := by
  have hn := map_2 (fun t : Int => Masks.ofBool (t > 0)) ht
  obtain ⟨k, hk, h0⟩ := causal_4 ht
  obtain ⟨a, ha, h1⟩ := mask_4 hn hn Masks.multiply
  rcases hs with @⟨s, y, hs⟩ | _
  · obtain ⟨c, hc, h2⟩ := mask_4 hs hs Masks.equal
    obtain ⟨r, hr, h3⟩ := combine_3 h0 h1 h2
    exact ⟨r, _, by simp only [makeDecoderMask, hk, ha, hc, Option.bind_some, hr], h3, fun b => rfl⟩
  · obtain ⟨r, hr, h3⟩ := combine_2 h0 h1
    exact ⟨r, _, by simp only [makeDecoderMask, hk, ha, Option.bind_some, hr], h3, fun b => rfl⟩

/-! ### The network -/

abbrev MaskIs (a : Option (NDArray Int)) (M : Option (Fin B → Fin n → Fin m → Int)) : Prop :=
  Option.Rel (fun (a : NDArray Int) (M : Fin B → Fin n → Fin m → Int) => Holds4 a fun b (_ : Fin 1) i j => M b i j) a M

variable {cfg : Config} {p : Params} {net : Transformer.Net d h e f V} (ex : ℝ → ℝ) (lg : ℕ → ℝ)

theorem mlpBlock_3 (hp : ParamsAre cfg p net) {scale : NDArray ℝ} {s : Fin d → ℝ} (hs : Holds1 scale s) {a : Mlp} {w : Transformer.Mlp d f}
    (ha : MlpIs a w) {inputs : NDArray ℝ} {x : Fin B → Fin n → Fin d → ℝ} (hx : Holds3 inputs x) :
    ∃ r, mlpBlock cfg scale a inputs = some r ∧ Holds3 r fun b i => Transformer.mlpBlock net.eps s w (x b i) := by
  obtain ⟨y, hy, h1⟩ := layerNorm_3 net.eps hs hx
  obtain ⟨z, hz, h2⟩ := mlp_3 ha h1
  obtain ⟨r, hr, h3⟩ := zip_3_3 (fun u v : ℝ => u + v) h2 hx
  exact ⟨r, by simp only [mlpBlock, hp.eps, hp.mlpDim, hy, hz, hr, Option.bind_some], h3⟩

theorem encLayer_3 (hp : ParamsAre cfg p net) {a : EncLayer} {l : Transformer.EncLayer d h e f} (ha : EncIs a l) {mask : Option (NDArray Int)}
    {M : Option (Fin B → Fin n → Fin n → Int)} (hm : MaskIs mask M) {inputs : NDArray ℝ} {x : Fin B → Fin n → Fin d → ℝ} (hx : Holds3 inputs x) :
    ∃ r, encLayer ex lg cfg p.encRel mask a inputs = some r ∧
      Holds3 r fun b => Transformer.encLayer ex lg net (M.map fun M => M b) (x b) l := by
  obtain ⟨bias, hb, h0⟩ := relativeBias_4 lg hp.encRel n n true net.encRel fun _ _ => rfl
  obtain ⟨y, hy, h1⟩ := layerNorm_3 net.eps ha.preAttention hx
  obtain ⟨z, hz, h2⟩ := attention_3 ex ha.attention h1 h1 hm (bias := some bias) (R := some fun i => Transformer.relBias lg net.encRel true n i)
    (.some h0)
  obtain ⟨u, hu, h3⟩ := zip_3_3 (fun u v : ℝ => u + v) h2 hx
  obtain ⟨r, hr, h4⟩ := mlpBlock_3 hp ha.preMlp ha.mlp h3
  have hn : inputs.shape.getD 1 0 = n := by simp [hx.1]
  have hl : inputs.shape.length = 3 := by simp [hx.1]
  refine ⟨r, by simp only [encLayer, hl, if_true, hn, hb, hp.eps, hp.numHeads, hp.headDim, hy, hz, hu, hr, Option.bind_some], h4.1, ?_⟩
  intro b i c
  rw [h4.2]
  simp only [Transformer.encLayer, Option.map_map, Option.map_some]
  rfl

theorem crossAndMlp_3 (hp : ParamsAre cfg p net) {a : DecLayer} {l : Transformer.DecLayer d h e f} (ha : DecIs a l) {cross : Option (NDArray Int)}
    {C : Option (Fin B → Fin n → Fin m → Int)} (hc : MaskIs cross C) {encoded : NDArray ℝ} {y : Fin B → Fin m → Fin d → ℝ} (he : Holds3 encoded y)
    {inputs : NDArray ℝ} {x : Fin B → Fin n → Fin d → ℝ} (hx : Holds3 inputs x) :
    ∃ r, crossAndMlp ex cfg cross encoded a inputs = some r ∧ Holds3 r fun b i =>
      let u := Transformer.attention ex l.cross (Transformer.layerNorm net.eps l.preCross (x b i)) (y b) (C.map fun C => C b i) none
      Transformer.mlpBlock net.eps l.preMlp l.mlp fun c => u c + x b i c := by
  obtain ⟨v, hv, h1⟩ := layerNorm_3 net.eps ha.preCross hx
  obtain ⟨z, hz, h2⟩ := attention_3 ex ha.cross h1 he hc (bias := none) (R := none) .none
  obtain ⟨u, hu, h3⟩ := zip_3_3 (fun u v : ℝ => u + v) h2 hx
  obtain ⟨r, hr, h4⟩ := mlpBlock_3 hp ha.preMlp ha.mlp h3
  exact ⟨r, by simp only [crossAndMlp, hp.eps, hp.numHeads, hp.headDim, hv, hz, hu, hr, Option.bind_some], h4⟩

theorem decLayer_3 (hp : ParamsAre cfg p net) {a : DecLayer} {l : Transformer.DecLayer d h e f} (ha : DecIs a l) {mask cross : Option (NDArray Int)}
    {M : Option (Fin B → Fin n → Fin n → Int)} (hm : MaskIs mask M) {C : Option (Fin B → Fin n → Fin m → Int)} (hc : MaskIs cross C)
    {encoded : NDArray ℝ} {y : Fin B → Fin m → Fin d → ℝ} (he : Holds3 encoded y) {inputs : NDArray ℝ} {x : Fin B → Fin n → Fin d → ℝ}
    (hx : Holds3 inputs x) :
    ∃ r, decLayer ex lg cfg p.decRel mask cross encoded a inputs = some r ∧
      Holds3 r fun b => Transformer.decLayer ex lg net (M.map fun M => M b) (C.map fun C => C b) (y b) (x b) l := by
  obtain ⟨bias, hb, h0⟩ := relativeBias_4 lg hp.decRel n n false net.decRel fun _ _ => rfl
  obtain ⟨v, hv, h1⟩ := layerNorm_3 net.eps ha.preSelf hx
  obtain ⟨z, hz, h2⟩ := attention_3 ex ha.self h1 h1 hm (bias := some bias) (R := some fun i => Transformer.relBias lg net.decRel false n i)
    (.some h0)
  obtain ⟨u, hu, h3⟩ := zip_3_3 (fun u v : ℝ => u + v) h2 hx
  obtain ⟨r, hr, h4⟩ := crossAndMlp_3 ex hp ha hc he h3
  have hn : inputs.shape.getD 1 0 = n := by simp [hx.1]
  refine ⟨r, by simp only [decLayer, hn, hb, hp.eps, hp.numHeads, hp.headDim, hv, hz, hu, hr, Option.bind_some], h4.1, ?_⟩
  intro b i c
  rw [h4.2]
  simp only [Transformer.decLayer, Option.map_map, Option.map_some]
  rfl

theorem encLayers_3 (hp : ParamsAre cfg p net) {mask : Option (NDArray Int)} {M : Option (Fin B → Fin n → Fin n → Int)} (hm : MaskIs mask M)
    {as : List EncLayer} {ls : List (Transformer.EncLayer d h e f)} (h : List.Forall₂ EncIs as ls) :
    ∀ {inputs : NDArray ℝ} {x : Fin B → Fin n → Fin d → ℝ}, Holds3 inputs x → ∃ r, encLayers ex lg cfg p.encRel mask as inputs = some r ∧
      Holds3 r fun b => ls.foldl (Transformer.encLayer ex lg net (M.map fun M => M b)) (x b) := by
  induction h with
  | nil => intro inputs x hx; exact ⟨inputs, rfl, hx⟩
  | cons ha _ ih =>
    intro inputs x hx
    obtain ⟨y, hy, h1⟩ := encLayer_3 ex lg hp ha hm hx
    obtain ⟨r, hr, h2⟩ := ih h1
    exact ⟨r, by simp only [encLayers, hy, Option.bind_some, hr], h2⟩

theorem decLayers_3 (hp : ParamsAre cfg p net) {mask cross : Option (NDArray Int)} {M : Option (Fin B → Fin n → Fin n → Int)} (hm : MaskIs mask M)
    {C : Option (Fin B → Fin n → Fin m → Int)} (hc : MaskIs cross C) {encoded : NDArray ℝ} {y : Fin B → Fin m → Fin d → ℝ}
    (he : Holds3 encoded y) {as : List DecLayer} {ls : List (Transformer.DecLayer d h e f)} (h : List.Forall₂ DecIs as ls) :
    ∀ {inputs : NDArray ℝ} {x : Fin B → Fin n → Fin d → ℝ}, Holds3 inputs x →
      ∃ r, decLayers ex lg cfg p.decRel mask cross encoded as inputs = some r ∧
        Holds3 r fun b => ls.foldl (Transformer.decLayer ex lg net (M.map fun M => M b) (C.map fun C => C b) (y b)) (x b) := by
  induction h with
  | nil => intro inputs x hx; exact ⟨inputs, rfl, hx⟩
  | cons ha _ ih =>
    intro inputs x hx
    obtain ⟨v, hv, h1⟩ := decLayer_3 ex lg hp ha hm hc he hx
    obtain ⟨r, hr, h2⟩ := ih h1
    exact ⟨r, by simp only [decLayers, hv, Option.bind_some, hr], h2⟩

theorem encoder_3 (hp : ParamsAre cfg p net) {t : NDArray Int} {x : Fin B → Fin m → Int} (ht : Holds2 t x) {mask : Option (NDArray Int)}
    {M : Option (Fin B → Fin m → Fin m → Int)} (hm : MaskIs mask M) :
    ∃ r, encoder ex lg cfg p t mask = some r ∧ Holds3 r fun b => Transformer.encoder ex lg net (x b) (M.map fun M => M b) := by
  obtain ⟨y, hy, h1⟩ := embed_3 hp.table ht
  obtain ⟨z, hz, h2⟩ := encLayers_3 ex lg hp hm hp.enc h1
  obtain ⟨r, hr, h3⟩ := layerNorm_3 net.eps hp.encNorm h2
  have hl : t.shape.length = 2 := by simp [ht.1]
  exact ⟨r, by simp only [encoder, hl, if_true, hy, hz, hp.eps, hr, Option.bind_some], h3⟩

theorem toLogits_3 (hp : ParamsAre cfg p net) {y : NDArray ℝ} {x : Fin B → Fin n → Fin d → ℝ} (hy : Holds3 y x) :
    ∃ r, toLogits cfg p y = some r ∧ Holds3 r fun b i => Transformer.toLogits net (x b i) := by
  obtain ⟨z, hz, h1⟩ := layerNorm_3 net.eps hp.decNorm hy
  have hh := hp.head
  unfold toLogits
  rw [hp.eps, hz]
  generalize hL : p.logitsDense = L at hh
  generalize hH : net.head = H at hh
  cases hh with
  | viaEmbedding =>
    obtain ⟨r, hr, h2⟩ := attend_3 hp.table h1
    have hd : z.shape.getLastD 1 = d := by simp [h1.1]
    refine ⟨mapA (fun v => v / √((d : Nat) : ℝ)) r, by simp only [Option.bind_some, hr, hd, Option.map_some], ?_⟩
    have := map_3 (fun v => v / √((d : Nat) : ℝ)) h2
    refine ⟨this.1, fun b i v => ?_⟩
    rw [this.2]
    simp only [Transformer.toLogits, hH]
  | dense hk =>
    obtain ⟨r, hr, h2⟩ := dense_3 h1 hk
    refine ⟨r, by simp only [Option.bind_some, hp.vocabSize, hr], h2.1, fun b i v => ?_⟩
    rw [h2.2]
    simp only [Transformer.toLogits, hH]

theorem decoder_3 (hp : ParamsAre cfg p net) {t : NDArray Int} {x : Fin B → Fin n → Int} (ht : Holds2 t x) {encoded : NDArray ℝ}
    {y : Fin B → Fin m → Fin d → ℝ} (he : Holds3 encoded y) {mask cross : Option (NDArray Int)} {M : Option (Fin B → Fin n → Fin n → Int)}
    (hm : MaskIs mask M) {C : Option (Fin B → Fin n → Fin m → Int)} (hc : MaskIs cross C) :
    ∃ r, decoder ex lg cfg p encoded t mask cross = some r ∧
      Holds3 r fun b => Transformer.decoder ex lg net (y b) (x b) (M.map fun M => M b) (C.map fun C => C b) := by
  obtain ⟨u, hu, h1⟩ := embed_3 hp.table ht
  obtain ⟨z, hz, h2⟩ := decLayers_3 ex lg hp hm hc he hp.dec h1
  obtain ⟨r, hr, h3⟩ := toLogits_3 hp h2
  have hl : t.shape.length = 2 := by simp [ht.1]
  exact ⟨r, by simp only [decoder, hl, if_true, hu, hz, hr, Option.bind_some], h3⟩

/-! ### Decoding -/

theorem attentionStep_3 {L : Nat} (hL : 0 < L) {a : Attn} {w : Transformer.Attn d h e} (ha : AttnIs a w) {k : Cache}
    {c : Fin B → KVCache.Cache h e L} (hc : CacheIs k c) {inputs : NDArray ℝ} {x : Fin B → Fin 1 → Fin d → ℝ} (hx : Holds3 inputs x)
    {bias : NDArray ℝ} {rel : Fin h → ℤ → ℝ}
    (hb : Holds4 bias fun (_ : Fin 1) hd (i : Fin L) (j : Fin L) => RelPos.bias lg (rel hd) false 32 i.val j.val) :
    ∃ r k', attentionStep ex h e a k inputs none (some bias) = some (r, k') ∧
      (Holds3 r fun b i => (T5Decode.selfStep ex w (T5Decode.biasRow lg rel L) (c b) (x b i)).1) ∧
      CacheIs k' fun b => (T5Decode.selfStep ex w (T5Decode.biasRow lg rel L) (c b) (x b 0)).2 := by
  obtain ⟨q, hq, h1⟩ := project_3 hx ha.query
  obtain ⟨ke, hke, h2⟩ := project_3 hx ha.key
  obtain ⟨v, hv, h3⟩ := project_3 hx ha.value
  obtain ⟨ke1, hke1, h4⟩ := move_back h2
  obtain ⟨v1, hv1, h5⟩ := move_back h3
  obtain ⟨ke2, hke2, h6⟩ := zip_41_1 (fun u v : ℝ => u * v) h4 (oneHot_1 k.index L)
  obtain ⟨v2, hv2, h7⟩ := zip_41_1 (fun u v : ℝ => u * v) h5 (oneHot_1 k.index L)
  obtain ⟨ke3, hke3, h8⟩ := zip_4_4 (fun u v : ℝ => u + v) hc.key h6
  obtain ⟨v3, hv3, h9⟩ := zip_4_4 (fun u v : ℝ => u + v) hc.value h7
  obtain ⟨ke4, hke4, h10⟩ := move_front h8
  obtain ⟨v4, hv4, h11⟩ := move_front h9
  obtain ⟨cm, hcm, h12⟩ := broadcast_mask (map_1 (fun j : Int => Masks.ofBool (j ≤ k.index)) (arange_1 L)) B
  have hcomb : combineMasks [none, some cm] = some (some cm) := by simp [combineMasks, combine]
  obtain ⟨b1, hb1, h13⟩ := squeeze_4 hb
  obtain ⟨b2, hb2, h14⟩ := slice_3 h13 k.index hL
  have hslice : sliceBias k.index (some bias) = some (some b2) := by simp [sliceBias, hb1, hb2]
  obtain ⟨r, hr, h15⟩ := attendOut_4 ex ha.out h1 h10 h11 (mask := some cm)
    (M := some fun (_ : Fin B) (_ : Fin 1) (j : Fin L) => Masks.ofBool ((j.val : Int) ≤ k.index)) (.some h12) (bias := some b2)
    (R := some fun (_ : Fin 1) => T5Decode.biasRow lg rel L k.index) (.some h14)
  have hd : inputs.shape.getLastD 1 = d := by simp [hx.1]
  refine ⟨r, ⟨ke3, v3, k.index + 1⟩, ?_, ?_, ?_⟩
  · unfold attentionStep
    simp only [hq, hke, hv, Option.bind_some, hc.key.1, h1.1, if_true, hke1, hv1, hke2, hv2, hke3, hv3, hke4, hv4, hcm, hcomb, hslice, hd, hr,
      Option.map_some]
  · refine ⟨h15.1, fun b i cc => ?_⟩
    rw [h15.2]
    have hi : i = 0 := Subsingleton.elim _ _
    subst hi
    simp only [T5Decode.selfStep, KVCache.oneHot, hc.index, Option.map_some, Nat.cast_le]
  · refine ⟨⟨h8.1, fun b hd e' j => ?_⟩, ⟨h9.1, fun b hd e' j => ?_⟩, fun b => ?_⟩
    · rw [h8.2]; simp only [T5Decode.selfStep, KVCache.oneHot, hc.index]
    · rw [h9.2]; simp only [T5Decode.selfStep, KVCache.oneHot, hc.index]
    · simp only [T5Decode.selfStep, hc.index]

theorem decLayerStep_3 (hp : ParamsAre cfg p net) {L : Nat} (hL : 0 < L) {a : DecLayer} {l : Transformer.DecLayer d h e f} (ha : DecIs a l)
    {k : Cache} {c : Fin B → KVCache.Cache h e L} (hc : CacheIs k c) {cross : NDArray Int} {C : Fin B → Fin 1 → Fin m → Int}
    (hm : Holds4 cross fun b (_ : Fin 1) i j => C b i j) {encoded : NDArray ℝ} {y : Fin B → Fin m → Fin d → ℝ} (he : Holds3 encoded y)
    {inputs : NDArray ℝ} {x : Fin B → Fin 1 → Fin d → ℝ} (hx : Holds3 inputs x) :
    ∃ r k', decLayerStep ex lg cfg p.decRel L (some cross) encoded a k inputs = some (r, k') ∧
      (Holds3 r fun b i => (T5Decode.layerStep ex lg net (C b 0) (y b) l (c b) (x b i)).1) ∧
      CacheIs k' fun b => (T5Decode.layerStep ex lg net (C b 0) (y b) l (c b) (x b 0)).2 := by
  obtain ⟨bias, hb, h0⟩ := relativeBias_4 lg hp.decRel L L false net.decRel fun _ _ => rfl
  obtain ⟨v, hv, h1⟩ := layerNorm_3 net.eps ha.preSelf hx
  obtain ⟨z, k', hz, h2, hk'⟩ := attentionStep_3 ex lg hL ha.self hc h1 h0
  obtain ⟨u, hu, h3⟩ := zip_3_3 (fun u v : ℝ => u + v) h2 hx
  obtain ⟨r, hr, h4⟩ := crossAndMlp_3 ex hp ha (cross := some cross) (C := some C) (.some hm) he h3
  refine ⟨r, k', ?_, ⟨h4.1, fun b i c => ?_⟩, hk'⟩
  · simp only [decLayerStep, hb, hp.eps, hp.numHeads, hp.headDim, hv, hz, hu, hr, Option.bind_some, Option.map_some]
  · rw [h4.2]
    have hi : i = 0 := Subsingleton.elim _ _
    subst hi
    rfl

theorem decLayersStep_3 (hp : ParamsAre cfg p net) {L : Nat} (hL : 0 < L) {cross : NDArray Int} {C : Fin B → Fin 1 → Fin m → Int}
    (hm : Holds4 cross fun b (_ : Fin 1) i j => C b i j) {encoded : NDArray ℝ} {y : Fin B → Fin m → Fin d → ℝ} (he : Holds3 encoded y)
    {as : List (DecLayer × Cache)} {cs : Fin B → List (Transformer.DecLayer d h e f × KVCache.Cache h e L)} (h : CachesAre as cs) :
    ∀ {inputs : NDArray ℝ} {x : Fin B → Fin 1 → Fin d → ℝ}, Holds3 inputs x →
      ∃ r as', decLayersStep ex lg cfg p.decRel L (some cross) encoded as inputs = some (r, as') ∧
        (Holds3 r fun b i => (T5Decode.stackStep ex lg net (C b 0) (y b) (cs b) (x b i)).1) ∧
        CachesAre as' fun b => (T5Decode.stackStep ex lg net (C b 0) (y b) (cs b) (x b 0)).2 := by
  induction h with
  | nil => intro inputs x hx; exact ⟨inputs, [], rfl, hx, .nil⟩
  | cons ha hc _ ih =>
    intro inputs x hx
    obtain ⟨v, k', hv, h1, hk'⟩ := decLayerStep_3 ex lg hp hL ha hc hm he hx
    obtain ⟨r, as', hr, h2, h3⟩ := ih h1
    refine ⟨r, _, by simp only [decLayersStep, hv, Option.bind_some, hr, Option.map_some]; rfl, ⟨h2.1, fun b i c => ?_⟩, ?_⟩
    · rw [h2.2]; rfl
    · exact .cons ha hk' h3

theorem step_3 (hp : ParamsAre cfg p net) {L : Nat} (hL : 0 < L) {encTokens : NDArray Int} {t : Fin B → Fin m → Int} (ht : Holds2 encTokens t)
    {encoded : NDArray ℝ} {y : Fin B → Fin m → Fin d → ℝ} (he : Holds3 encoded y) {as : List (DecLayer × Cache)}
    {cs : Fin B → List (Transformer.DecLayer d h e f × KVCache.Cache h e L)} (h : CachesAre as cs) {tokens : NDArray Int} {u : Fin B → Int}
    (hu : Holds2 tokens fun b (_ : Fin 1) => u b) :
    ∃ r as', step ex lg cfg p L encTokens encoded as tokens = some (r, as') ∧
      (Holds3 r fun b (_ : Fin 1) => (T5Decode.step ex lg net (t b) (y b) (cs b) (u b)).1) ∧
      CachesAre as' fun b => (T5Decode.step ex lg net (t b) (y b) (cs b) (u b)).2 := by
  obtain ⟨cross, hcr, h1⟩ := mask_4 (map_2 (fun _ : Int => (1 : Int)) hu) (map_2 (fun t : Int => Masks.ofBool (t > 0)) ht) Masks.multiply
  obtain ⟨x, hx, h2⟩ := embed_3 hp.table hu
  obtain ⟨z, as', hz, h3, h4⟩ := decLayersStep_3 ex lg hp hL h1 he h h2
  obtain ⟨r, hr, h5⟩ := toLogits_3 hp h3
  have hl : tokens.shape.length = 2 := by simp [hu.1]
  exact ⟨r, as', by simp only [step, hcr, Option.bind_some, hl, if_true, hx, hz, hr, Option.map_some], ⟨h5.1, h5.2⟩, h4⟩

end Verif.ArrT5
