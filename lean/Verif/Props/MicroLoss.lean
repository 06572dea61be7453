import Verif.Spec.MicroLoss
import Verif.Props.Microbatch
import Mathlib.Analysis.SpecialFunctions.Log.Deriv
import Mathlib.Analysis.SpecialFunctions.ExpDeriv
import Mathlib.Analysis.Calculus.FDeriv.Add
import Mathlib.Analysis.Calculus.FDeriv.Mul
/- Property C104. -/
namespace Verif.MicroLoss
open Verif Verif.MicroLoss.Spec Verif.Masks Verif.Transformer Verif.PackedLoss
open Verif.LossWeights (LNF Special)
open Verif.Train.Spec (Example examples Rect)

variable {P R : Type} {n m V : Nat}

theorem zip_sum (f : Fin n → ℝ) (w : List ℝ) : (List.zipWith (· * ·) (List.ofFn f) w).sum = ∑ i : Fin n, f i * w.getD i 0 := by
  induction n generalizing w with
  | zero => simp
  | succ n ih =>
    cases w with
    | nil => simp
    | cons a w =>
      rw [List.ofFn_succ, List.zipWith_cons_cons, List.sum_cons, ih, Fin.sum_univ_succ]
      simp

theorem over_sum (rows : List (List ℝ)) (k : ℝ) : LossWeights.total (rows.map fun r => r.map (· / k)) = LossWeights.total rows / k := by
  unfold LossWeights.total
  have : ∀ r : List ℝ, (r.map (· / k)).sum = r.sum / k := by
    intro r; simp only [div_eq_mul_inv, List.sum_map_mul_right, List.map_id']
  rw [List.map_map]
  simp only [Function.comp_def, this]
  simp only [div_eq_mul_inv, List.sum_map_mul_right]

theorem mapM_rows {α β : Type} (f : α → Option β) (g : α → β) (l : List α) (h : ∀ x ∈ l, f x = some (g x)) : l.mapM f = some (l.map g) := by
  induction l with
  | nil => rfl
  | cons a l ih =>
    rw [List.mapM_cons, h a (List.mem_cons_self ..), ih fun x hx => h x (List.mem_cons_of_mem _ hx)]
    rfl

/-- Weights and factor of the model are those of the specification. -/
theorem lnf_rows (lnf : LNF ℝ) (hs : ∀ s, lnf ≠ .str s) (t : TrainBatch n m) :
    ∃ k w, LossWeights.lnfAndWeights lnf (lossFeatures t) = some (k, w) ∧
      k.getD 1 = factor lnf t.packed t.weighted t.rows ∧
      (w = some (t.rows.map (tokenWeights lnf t.packed t.weighted)) ∨
        w = none ∧ ∀ r : TrainRow n m, tokenWeights lnf t.packed t.weighted r = List.replicate n 1) := by
  have hw : (lossFeatures t).weights = some (t.rows.map fun r => if t.weighted then List.ofFn r.weights else List.replicate n 1) ∨
      (lossFeatures t).weights = none ∧ t.weighted = false := by
    cases h : t.weighted <;> simp [lossFeatures, h]
  cases lnf with
  | none =>
    refine ⟨_, _, rfl, rfl, ?_⟩
    rcases hw with hw | ⟨hw, h⟩
    · exact Or.inl hw
    · exact Or.inr ⟨hw, fun r => by simp [tokenWeights, h]⟩
  | const k =>
    refine ⟨_, _, rfl, rfl, ?_⟩
    rcases hw with hw | ⟨hw, h⟩
    · exact Or.inl hw
    · exact Or.inr ⟨hw, fun r => by simp [tokenWeights, h]⟩
  | str s => exact absurd rfl (hs s)
  | special s =>
    obtain ⟨rows, packed, weighted⟩ := t
    have hd : ∀ a b : ℝ, LossWeights.safeDiv a b = a / b := by
      intro a b
      unfold LossWeights.safeDiv
      split_ifs with h
      · rw [h, div_zero]
      · rfl
    cases s with
    | numReal =>
      cases weighted
      · refine ⟨_, _, rfl, ?_, Or.inl ?_⟩ <;>
          simp [factor, tokenWeights, lossFeatures, given, LossWeights.total, List.map_map, Function.comp_def, List.map_ofFn]
      · refine ⟨_, _, rfl, ?_, Or.inl ?_⟩ <;>
          simp [factor, tokenWeights, lossFeatures, given, LossWeights.total, List.map_map, Function.comp_def]
    | numTotal =>
      cases weighted
      · refine ⟨_, _, rfl, ?_, Or.inl ?_⟩ <;>
          simp [factor, tokenWeights, lossFeatures, given, List.map_map, Function.comp_def, List.map_ofFn]
      · refine ⟨_, _, rfl, ?_, Or.inl ?_⟩ <;>
          simp [factor, tokenWeights, lossFeatures, given, List.map_map, Function.comp_def]
    | averagePerSequence =>
      cases weighted <;> cases packed
      · refine ⟨_, _, rfl, ?_, Or.inl ?_⟩ <;>
          simp [factor, tokenWeights, lossFeatures, given, LossWeights.total, List.map_map, Function.comp_def, List.map_ofFn, hd]
      · refine ⟨_, _, rfl, ?_, Or.inl ?_⟩ <;>
          simp [factor, tokenWeights, lossFeatures, given, LossWeights.total, List.map_map, Function.comp_def, List.map_ofFn, List.zip_map',
            List.zipWith_map, List.zipWith_self]
      · refine ⟨_, _, rfl, ?_, Or.inl ?_⟩ <;>
          simp [factor, tokenWeights, lossFeatures, given, LossWeights.total, List.map_map, Function.comp_def, List.map_ofFn, hd]
      · refine ⟨_, _, rfl, ?_, Or.inl ?_⟩ <;>
          simp [factor, tokenWeights, lossFeatures, given, LossWeights.total, List.map_map, Function.comp_def, List.zip_map',
            List.zipWith_map, List.zipWith_self]

/-- The loss of a batch: a sum over the tokens divided by the factor. -/
theorem loss_rows (f : TrainRow n m → Option (Fin n → Vec V)) (Y : TrainRow n m → Fin n → Vec V) (lnf : LNF ℝ) (hs : ∀ s, lnf ≠ .str s)
    (smoothing z : ℝ) (t : TrainBatch n m) (hf : ∀ r ∈ t.rows, f r = some (Y r)) :
    ∃ s, lossFn f lnf smoothing z t = some ((t.rows.map fun r => rowLoss lnf smoothing z t.packed t.weighted r (Y r)).sum / factor lnf t.packed t.weighted t.rows,
      (t.rows.map fun r => rowZ lnf smoothing z t.packed t.weighted r (Y r)).sum / factor lnf t.packed t.weighted t.rows, s) := by
  obtain ⟨k, w, h1, h2, h3⟩ := lnf_rows lnf hs t
  unfold lossFn
  rw [mapM_rows f Y t.rows hf, Option.bind_some, h1, Option.map_some]
  unfold weighAndSum
  refine ⟨_, congrArg some (Prod.ext ?_ (Prod.ext ?_ rfl))⟩
  all_goals
    dsimp only
    have hk : ∀ l : List (List ℝ), LossWeights.total (match k with
        | some k => l.map fun r => r.map (· / k)
        | none => l) = LossWeights.total l / k.getD 1 := by
      intro l
      cases k with
      | none => exact (div_one _).symm
      | some k => exact over_sum l k
    refine (hk _).trans ?_
    rw [h2]
    congr 1
    rcases h3 with h3 | ⟨h3, h4⟩
    · subst h3
      dsimp only
      unfold LossWeights.total
      simp only [List.zipWith_map_left, List.zipWith_map_right, List.zipWith_self, List.map_map, Function.comp_def, List.map_zipWith, List.map_ofFn, zip_sum]
      rfl
    · subst h3
      dsimp only
      unfold LossWeights.total
      simp only [List.zipWith_map_left, List.zipWith_map_right, List.zipWith_self, List.map_map, Function.comp_def, List.map_zipWith, List.map_ofFn]
      congr 1
      apply List.map_congr_left
      intro r _
      simp [rowLoss, rowZ, h4, List.sum_ofFn]

theorem lossOf_eq (c : Cfg P n m V) (hs : ∀ s, c.lnf ≠ .str s) (Y : P → TrainRow n m → Fin n → Vec V) (b : Train.Batch Cells) (q : P)
    (h : ∀ r ∈ rowsOf n m b, c.logits q (has b "decoder_segment_ids") r = some (Y q r)) :
    lossOf c b q = (undivided c Y b q / divisor c b, undividedZ c Y b q / divisor c b) := by
  obtain ⟨s, e⟩ := loss_rows (c.logits q (has b "decoder_segment_ids")) (Y q) c.lnf hs c.smoothing c.z (toTrainBatch n m b) h
  have e' : lossFn (c.logits q (toTrainBatch n m b).packed) c.lnf c.smoothing c.z (toTrainBatch n m b) = _ := e
  unfold lossOf
  dsimp only
  rw [e']
  rfl

/-! Derivatives -/

section diff
variable [NormedAddCommGroup P] [NormedSpace ℝ P]

theorem position_diff (smoothing z : ℝ) (y : P → Vec V) (t : ℤ) (p : P) (h : ∀ v, DifferentiableAt ℝ (fun q => y q v) p) :
    DifferentiableAt ℝ (fun q => (position smoothing z (y q) t).1) p := by
  cases V with
  | zero =>
    have : ∀ q, y q = fun v => v.elim0 := fun q => funext fun v => v.elim0
    simp only [this]
    exact differentiableAt_const _
  | succ V =>
    have hl : DifferentiableAt ℝ (fun q => Loss.logsumexp (y q)) p := by
      unfold Loss.logsumexp
      apply DifferentiableAt.log
      · exact DifferentiableAt.fun_sum fun i _ => (h i).exp
      · exact (Finset.sum_pos (fun i _ => Real.exp_pos _) ⟨0, Finset.mem_univ _⟩).ne'
    unfold position Loss.crossEntropy
    dsimp only
    refine DifferentiableAt.sub_const (DifferentiableAt.add (DifferentiableAt.neg ?_) ?_) _
    · exact DifferentiableAt.fun_sum fun i _ => ((h i).sub hl).const_mul _
    · exact (hl.pow 2).const_mul _

theorem list_sum_diff {α : Type} (l : List α) (f : α → P → ℝ) (p : P) (h : ∀ a ∈ l, DifferentiableAt ℝ (f a) p) :
    DifferentiableAt ℝ (fun q => (l.map fun a => f a q).sum) p ∧
      fderiv ℝ (fun q => (l.map fun a => f a q).sum) p = (l.map fun a => fderiv ℝ (f a) p).sum := by
  induction l with
  | nil => simp
  | cons a l ih =>
    obtain ⟨h1, h2⟩ := ih fun x hx => h x (List.mem_cons_of_mem _ hx)
    have h0 := h a (List.mem_cons_self ..)
    simp only [List.map_cons, List.sum_cons]
    refine ⟨h0.add h1, ?_⟩
    rw [fderiv_fun_add h0 h1, h2]

theorem rowLoss_diff (lnf : LNF ℝ) (smoothing z : ℝ) (packed weighted : Bool) (r : TrainRow n m) (Y : P → Fin n → Vec V) (p : P)
    (h : ∀ i v, DifferentiableAt ℝ (fun q => Y q i v) p) :
    DifferentiableAt ℝ (fun q => rowLoss lnf smoothing z packed weighted r (Y q)) p := by
  unfold rowLoss
  exact DifferentiableAt.fun_sum fun i _ => (position_diff smoothing z (fun q => Y q i) _ p (h i)).mul_const _

theorem grad_eq (c : Cfg P n m V) (hs : ∀ s, c.lnf ≠ .str s) (Y : P → TrainRow n m → Fin n → Vec V) (b : Train.Batch Cells) (p : P)
    (h : Smooth c Y b p) :
    DifferentiableAt ℝ (undivided c Y b) p ∧
      fderiv ℝ (fun q => (lossOf c b q).1) p = (divisor c b)⁻¹ • fderiv ℝ (undivided c Y b) p := by
  have hd : DifferentiableAt ℝ (undivided c Y b) p :=
    (list_sum_diff _ (fun r q => rowLoss c.lnf c.smoothing c.z (has b "decoder_segment_ids") (has b "decoder_loss_weights") r (Y q r)) p
      fun r hr => rowLoss_diff _ _ _ _ _ r (fun q => Y q r) p (h.diff r hr)).1
  refine ⟨hd, ?_⟩
  have e : (fun q => (lossOf c b q).1) =ᶠ[nhds p] fun q => (divisor c b)⁻¹ • undivided c Y b q := by
    filter_upwards [h.defined] with q hq
    rw [lossOf_eq c hs Y b q hq, smul_eq_mul, div_eq_inv_mul]
  rw [e.fderiv_eq, fderiv_fun_const_smul hd]

end diff

/-! Microbatches -/

theorem has_micro {Row : Type} (b : Train.Batch Row) (g : List Char × List Row → List Row) (name : String) :
    has (b.map fun e => (e.1, g e)) name = has b name := by
  unfold has
  rw [List.any_map]
  rfl

theorem batchSize_rect {Row : Type} (b : Train.Batch Row) (B : Nat) (hb : Rect b B) : batchSize b = B := by
  cases b with
  | nil => exact absurd rfl hb.1
  | cons e b => exact hb.2 e (List.mem_cons_self ..)

/-- The `i`-th microbatch of size `s`. -/
def micro {Row : Type} (b : Train.Batch Row) (s i : Nat) : Train.Batch Row := b.map fun e => (e.1, (e.2.drop (i * s)).take s)

theorem micro_rows (b : Train.Batch Cells) (B s i : Nat) (hb : Rect b B) (hi : i * s + s ≤ B) :
    rowsOf n m (micro b s i) = ((rowsOf n m b).drop (i * s)).take s := by
  have h1 := batchSize_rect _ _ (Train.micro_rect b B s i hb hi)
  have h2 := Train.micro_examples b B s i hi
  unfold rowsOf toTrainBatch micro
  dsimp only
  rw [h1, h2, batchSize_rect b B hb, List.map_take, List.map_drop]

theorem rows_length (b : Train.Batch Cells) (B : Nat) (hb : Rect b B) : (rowsOf n m b).length = B := by
  unfold rowsOf toTrainBatch
  simp [batchSize_rect b B hb, examples]

theorem flat_take {α : Type} (l : List α) (s k : Nat) :
    (List.range k).flatMap (fun i => (l.drop (i * s)).take s) = l.take (k * s) := by
  induction k with
  | zero => simp
  | succ k ih =>
    rw [List.range_succ, List.flatMap_append, ih]
    simp only [List.flatMap_cons, List.flatMap_nil, List.append_nil]
    rw [Nat.add_mul, Nat.one_mul, List.take_add]

/-- The metrics of the loss. -/
def lossDict (l z : ℝ) (k : Nat) : Metrics.Dict ℝ := [("loss".toList, .avgStep l k), ("z_loss".toList, .avgStep z k)]

theorem mergeDict_loss (l z l' z' : ℝ) (k k' : Nat) :
    Metrics.mergeDict (lossDict l z k) (lossDict l' z' k') = .ok (lossDict (l + l') (z + z') (k + k')) := by
  simp [lossDict, Metrics.mergeDict, Metrics.merge]

section run
variable [NormedAddCommGroup P] [NormedSpace ℝ P]

theorem microLoop_loss (split : R → R × R) (c : Cfg P n m V) (p : P) (b : Train.Batch Cells) (B s : Nat) (hb : Rect b B) (rng : R) (k : Nat) :
    ∀ (i : Nat) (g : P →L[ℝ] ℝ) (l z : ℝ), 0 < i → (i + k) * s ≤ B →
    Train.microLoop split (lossGrad c) p b s k i rng ⟨g, lossDict l z i, none⟩ =
      .ok ⟨g + ((List.range' i k).map fun j => fderiv ℝ (fun q => (lossOf c (micro b s j) q).1) p).sum,
        lossDict (l + ((List.range' i k).map fun j => (lossOf c (micro b s j) p).1).sum)
          (z + ((List.range' i k).map fun j => (lossOf c (micro b s j) p).2).sum) (i + k), none⟩ := by
  induction k with
  | zero => intro i g l z _ _; simp [Train.microLoop]
  | succ k ih =>
    intro i g l z hi hle
    have h1 : i * s + s ≤ B := by
      have := Nat.mul_le_mul_right s (show i + 1 ≤ i + (k + 1) by omega)
      rw [Nat.add_mul, Nat.one_mul] at this; omega
    have e : Train.microStep split (lossGrad c) p b s rng i ⟨g, lossDict l z i, none⟩ =
        .ok (rng, ⟨g + fderiv ℝ (fun q => (lossOf c (micro b s i) q).1) p,
          lossDict (l + (lossOf c (micro b s i) p).1) (z + (lossOf c (micro b s i) p).2) (i + 1), none⟩) := by
      unfold Train.microStep
      rw [Train.getMicrobatch_ok b B s i hb.2 h1]
      simp only [if_neg (show i ≠ 0 by omega)]
      have hm : Metrics.mergeDict (lossDict l z i) (lossGrad (R := R) c p (micro b s i) (split rng).2 none).1 =
          .ok (lossDict (l + (lossOf c (micro b s i) p).1) (z + (lossOf c (micro b s i) p).2) (i + 1)) := mergeDict_loss ..
      unfold micro at hm ⊢
      rw [hm]
      rfl
    simp only [Train.microLoop, e]
    rw [ih (i + 1) _ _ _ (by omega) (by rw [show i + 1 + k = i + (k + 1) by omega]; exact hle)]
    simp only [List.range'_succ, List.map_cons, List.sum_cons, add_assoc]
    rw [show i + (1 + k) = i + (k + 1) by omega]

theorem accumulate_loss (split : R → R × R) (c : Cfg P n m V) (p : P) (b : Train.Batch Cells) (B k : Nat) (hb : Rect b B) (rng : R)
    (hk : 1 < k) (hd : k ∣ B) :
    Train.accumulate split (lossGrad c) p none b rng none =
      .ok ⟨fderiv ℝ (fun q => (lossOf c b q).1) p, lossDict (lossOf c b p).1 (lossOf c b p).2 1, none⟩ ∧
    Train.accumulate split (lossGrad c) p none b rng (some k) =
      .ok ⟨((List.range k).map fun j => fderiv ℝ (fun q => (lossOf c (micro b (B / k) j) q).1) p).sum,
        lossDict ((List.range k).map fun j => (lossOf c (micro b (B / k) j) p).1).sum
          ((List.range k).map fun j => (lossOf c (micro b (B / k) j) p).2).sum k, none⟩ := by
  constructor
  · cases b with
    | nil => exact absurd rfl hb.1
    | cons e b => rfl
  · have hloop : Train.accumulate split (lossGrad c) p none b rng (some k) =
        Train.microLoop split (lossGrad c) p b (B / k) k 0 rng ⟨0, [], none⟩ := by
      obtain ⟨hne, hl⟩ := hb
      cases b with
      | nil => exact absurd rfl hne
      | cons e0 b =>
        obtain ⟨f, rows⟩ := e0
        have hlen : rows.length = B := hl (f, rows) (List.mem_cons_self ..)
        simp only [Train.accumulate]
        rw [if_neg (by omega), if_neg (by rw [hlen, Nat.mod_eq_zero_of_dvd hd]; simp), hlen]
    rw [hloop]
    obtain ⟨k, rfl⟩ : ∃ k', k = k' + 1 := ⟨k - 1, by omega⟩
    have hB : (1 + k) * (B / (k + 1)) = B := by rw [Nat.add_comm 1 k]; exact Nat.mul_div_cancel' hd
    have h1 : 0 * (B / (k + 1)) + B / (k + 1) ≤ B := by rw [Nat.zero_mul, Nat.zero_add]; exact Nat.div_le_self ..
    have e : Train.microStep split (lossGrad c) p b (B / (k + 1)) rng 0 ⟨0, [], none⟩ =
        .ok (rng, ⟨fderiv ℝ (fun q => (lossOf c (micro b (B / (k + 1)) 0) q).1) p,
          lossDict (lossOf c (micro b (B / (k + 1)) 0) p).1 (lossOf c (micro b (B / (k + 1)) 0) p).2 1, none⟩) := by
      unfold Train.microStep
      rw [Train.getMicrobatch_ok b B _ 0 hb.2 h1]
      simp only [if_true, zero_add]
      rfl
    simp only [Train.microLoop, e, Nat.zero_add]
    rw [microLoop_loss split c p b B _ hb rng k 1 _ _ _ Nat.one_pos (by rw [hB])]
    rw [List.range_eq_range', List.range'_succ]
    simp only [List.map_cons, List.sum_cons, Nat.zero_add]
    rw [Nat.add_comm 1 k]

end run

section main
variable [NormedAddCommGroup P] [NormedSpace ℝ P]

theorem list_smul_sum {α E : Type} [AddCommGroup E] [Module ℝ E] (l : List α) (f : α → E) (a : ℝ) : (l.map fun x => a • f x).sum = a • (l.map f).sum := by
  induction l with
  | nil => simp
  | cons x l ih => simp only [List.map_cons, List.sum_cons, smul_add, ih]

theorem list_sum_div {α : Type} (l : List α) (f : α → ℝ) (a : ℝ) : (l.map fun x => f x / a).sum = (l.map f).sum / a := by
  induction l with
  | nil => simp
  | cons x l ih => simp only [List.map_cons, List.sum_cons, add_div, ih]

/-- C104: what a training step computes with one batch and with `k` microbatches.  Both are made of the same sums over the tokens of the
microbatches; on its own each of these is divided by the factor of its microbatch, in one batch all are divided by the factor of the batch. -/
theorem C104_step (split : R → R × R) (c : Cfg P n m V) (hs : ∀ s, c.lnf ≠ .str s) (Y : P → TrainRow n m → Fin n → Vec V) (p : P)
    (b : Train.Batch Cells) (B k : Nat) (rng : R) (hb : Rect b B) (hk : 1 < k) (hd : k ∣ B) (h : Smooth c Y b p) :
    ∃ (a1 ak : Train.Accum ℝ (P →L[ℝ] ℝ) Unit) (mbs : List (Train.Batch Cells)),
      Train.accumulate split (lossGrad c) p none b rng none = .ok a1 ∧
      Train.accumulate split (lossGrad c) p none b rng (some k) = .ok ak ∧
      mbs.length = k ∧ (∀ i (hi : i < mbs.length), Train.getMicrobatch (B / k) i b = .ok mbs[i]) ∧
      mbs.flatMap (rowsOf n m) = rowsOf n m b ∧ (∀ mb ∈ mbs, (rowsOf n m mb).length = B / k) ∧
      a1.grad = (divisor c b)⁻¹ • (mbs.map fun mb => fderiv ℝ (undivided c Y mb) p).sum ∧
      ak.grad = (mbs.map fun mb => (divisor c mb)⁻¹ • fderiv ℝ (undivided c Y mb) p).sum ∧
      (∀ d, Metrics.summarizeDict d 1 a1.metrics =
        [("loss".toList, .ok ((mbs.map fun mb => undivided c Y mb p).sum / divisor c b)),
         ("z_loss".toList, .ok ((mbs.map fun mb => undividedZ c Y mb p).sum / divisor c b))]) ∧
      (∀ d, Metrics.summarizeDict d 1 ak.metrics =
        [("loss".toList, .ok (mbs.map fun mb => undivided c Y mb p / divisor c mb).sum),
         ("z_loss".toList, .ok (mbs.map fun mb => undividedZ c Y mb p / divisor c mb).sum)]) := by
  obtain ⟨e1, ek⟩ := accumulate_loss split c p b B k hb rng hk hd
  have hle : ∀ i < k, i * (B / k) + B / k ≤ B := by
    intro i hi
    have := Nat.mul_le_mul_right (B / k) (show i + 1 ≤ k by omega)
    rw [Nat.add_mul, Nat.one_mul, Nat.mul_div_cancel' hd] at this
    exact this
  have hflat : ((List.range k).map (micro b (B / k))).flatMap (rowsOf n m) = rowsOf n m b := by
    rw [List.flatMap_map]
    have : (List.range k).flatMap (fun i => rowsOf n m (micro b (B / k) i)) =
        (List.range k).flatMap (fun i => ((rowsOf n m b).drop (i * (B / k))).take (B / k)) := by
      apply List.flatMap_congr
      intro i hi
      exact micro_rows b B _ i hb (hle i (List.mem_range.1 hi))
    rw [this, flat_take, Nat.mul_div_cancel' hd, List.take_of_length_le (by rw [rows_length b B hb])]
  have hsub : ∀ i < k, ∀ r ∈ rowsOf n m (micro b (B / k) i), r ∈ rowsOf n m b := by
    intro i hi r hr
    rw [micro_rows b B _ i hb (hle i hi)] at hr
    exact List.mem_of_mem_drop (List.mem_of_mem_take hr)
  have hpk : ∀ i, has (micro b (B / k) i) "decoder_segment_ids" = has b "decoder_segment_ids" := fun i => has_micro b _ _
  have hwt : ∀ i, has (micro b (B / k) i) "decoder_loss_weights" = has b "decoder_loss_weights" := fun i => has_micro b _ _
  have hsm : ∀ i < k, Smooth c Y (micro b (B / k) i) p := by
    intro i hi
    refine ⟨?_, fun r hr => h.diff r (hsub i hi r hr)⟩
    filter_upwards [h.defined] with q hq r hr
    rw [hpk]
    exact hq r (hsub i hi r hr)
  -- the sums of the batch are those of the microbatches
  have hsum : ∀ F : TrainRow n m → ℝ, ((rowsOf n m b).map F).sum =
      (((List.range k).map (micro b (B / k))).map fun mb => ((rowsOf n m mb).map F).sum).sum := by
    intro F
    rw [← hflat, List.map_flatMap, List.flatMap_def, List.sum_flatten, List.map_map]
    rfl
  have hund : ∀ q, undivided c Y b q = (((List.range k).map (micro b (B / k))).map fun mb => undivided c Y mb q).sum := by
    intro q
    unfold undivided
    rw [hsum, List.map_map, List.map_map]
    congr 1
    apply List.map_congr_left
    intro i _
    simp only [Function.comp, hpk, hwt]
  have hundZ : ∀ q, undividedZ c Y b q = (((List.range k).map (micro b (B / k))).map fun mb => undividedZ c Y mb q).sum := by
    intro q
    unfold undividedZ
    rw [hsum, List.map_map, List.map_map]
    congr 1
    apply List.map_congr_left
    intro i _
    simp only [Function.comp, hpk, hwt]
  have hloss : ∀ i < k, lossOf c (micro b (B / k) i) p = (undivided c Y (micro b (B / k) i) p / divisor c (micro b (B / k) i),
      undividedZ c Y (micro b (B / k) i) p / divisor c (micro b (B / k) i)) :=
    fun i hi => lossOf_eq c hs Y _ p (hsm i hi).defined.self_of_nhds
  have hl1 := lossOf_eq c hs Y b p h.defined.self_of_nhds
  refine ⟨_, _, (List.range k).map (micro b (B / k)), e1, ek, by simp, ?_, hflat, ?_, ?_, ?_, ?_, ?_⟩
  · intro i hi
    simp only [List.length_map, List.length_range] at hi
    simp only [List.getElem_map, List.getElem_range]
    exact Train.getMicrobatch_ok b B (B / k) i hb.2 (hle i hi)
  · intro mb hmb
    obtain ⟨i, hi, rfl⟩ := List.mem_map.1 hmb
    exact rows_length _ _ (Train.micro_rect b B (B / k) i hb (hle i (List.mem_range.1 hi)))
  · dsimp only
    rw [(grad_eq c hs Y b p h).2]
    congr 1
    have e : undivided c Y b = fun q => (((List.range k).map (micro b (B / k))).map fun mb => undivided c Y mb q).sum := funext hund
    rw [e]
    refine (list_sum_diff _ (fun mb q => undivided c Y mb q) p ?_).2
    intro mb hmb
    obtain ⟨i, hi, rfl⟩ := List.mem_map.1 hmb
    exact (grad_eq c hs Y _ p (hsm i (List.mem_range.1 hi))).1
  · dsimp only
    rw [List.map_map]
    congr 1
    apply List.map_congr_left
    intro i hi
    exact (grad_eq c hs Y _ p (hsm i (List.mem_range.1 hi))).2
  · intro d
    dsimp only
    rw [hl1, ← hund, ← hundZ]
    simp [lossDict, Metrics.summarizeDict, Metrics.summarize, Metrics.compute, Metrics.setSteps, Metrics.setDuration]
  · intro d
    dsimp only
    have f1 : ((List.range k).map fun j => (lossOf c (micro b (B / k) j) p).1) =
        ((List.range k).map (micro b (B / k))).map fun mb => undivided c Y mb p / divisor c mb := by
      rw [List.map_map]
      exact List.map_congr_left fun i hi => by rw [hloss i (List.mem_range.1 hi)]; rfl
    have f2 : ((List.range k).map fun j => (lossOf c (micro b (B / k) j) p).2) =
        ((List.range k).map (micro b (B / k))).map fun mb => undividedZ c Y mb p / divisor c mb := by
      rw [List.map_map]
      exact List.map_congr_left fun i hi => by rw [hloss i (List.mem_range.1 hi)]; rfl
    rw [f1, f2]
    simp [lossDict, Metrics.summarizeDict, Metrics.summarize, Metrics.compute, Metrics.setSteps, Metrics.setDuration]

/-- C104: without a factor, or with a constant, the number of microbatches changes neither the gradient nor the reported loss. -/
theorem C104_constant (split : R → R × R) (c : Cfg P n m V) (hc : c.lnf = .none ∨ ∃ x, c.lnf = .const x)
    (Y : P → TrainRow n m → Fin n → Vec V) (p : P) (b : Train.Batch Cells) (B k : Nat) (rng : R) (hb : Rect b B) (hk : 1 < k) (hd : k ∣ B)
    (h : Smooth c Y b p) :
    ∃ a1 ak, Train.accumulate split (lossGrad c) p none b rng none = .ok a1 ∧
      Train.accumulate split (lossGrad c) p none b rng (some k) = .ok ak ∧
      ak.grad = a1.grad ∧ ∀ d, Metrics.summarizeDict d 1 ak.metrics = Metrics.summarizeDict d 1 a1.metrics := by
  have hs : ∀ s, c.lnf ≠ .str s := by
    intro s e
    rcases hc with hc | ⟨x, hc⟩ <;> rw [e] at hc <;> cases hc
  obtain ⟨a1, ak, mbs, e1, ek, -, -, -, -, g1, gk, m1, mk⟩ := C104_step split c hs Y p b B k rng hb hk hd h
  have hdiv : ∀ mb, divisor c mb = divisor c b := by
    intro mb
    unfold divisor factor
    rcases hc with hc | ⟨x, hc⟩ <;> rw [hc]
  refine ⟨a1, ak, e1, ek, ?_, ?_⟩
  · rw [g1, gk]
    simp only [hdiv]
    exact list_smul_sum ..
  · intro d
    rw [m1, mk]
    simp only [hdiv, list_sum_div]

/-- C104: if the factors of the microbatches are equal shares of that of the batch, `k` microbatches give `k` times the gradient and report
`k` times the loss. -/
theorem C104_scaled (split : R → R × R) (c : Cfg P n m V) (hs : ∀ s, c.lnf ≠ .str s) (Y : P → TrainRow n m → Fin n → Vec V) (p : P)
    (b : Train.Batch Cells) (B k : Nat) (rng : R) (hb : Rect b B) (hk : 1 < k) (hd : k ∣ B) (h : Smooth c Y b p)
    (heq : ∀ i < k, ∀ mb, Train.getMicrobatch (B / k) i b = .ok mb → divisor c mb = divisor c b / k) :
    ∃ (a1 ak : Train.Accum ℝ (P →L[ℝ] ℝ) Unit) (l z : ℝ), Train.accumulate split (lossGrad c) p none b rng none = .ok a1 ∧
      Train.accumulate split (lossGrad c) p none b rng (some k) = .ok ak ∧
      ak.grad = (k : ℝ) • a1.grad ∧
      (∀ d, Metrics.summarizeDict d 1 a1.metrics = [("loss".toList, .ok l), ("z_loss".toList, .ok z)]) ∧
      ∀ d, Metrics.summarizeDict d 1 ak.metrics = [("loss".toList, .ok (k * l)), ("z_loss".toList, .ok (k * z))] := by
  obtain ⟨a1, ak, mbs, e1, ek, hl, hmb, -, -, g1, gk, m1, mk⟩ := C104_step split c hs Y p b B k rng hb hk hd h
  have hdiv : ∀ mb ∈ mbs, divisor c mb = divisor c b / k := by
    intro mb hm
    obtain ⟨i, hi, rfl⟩ := List.getElem_of_mem hm
    exact heq i (by omega) _ (hmb i hi)
  have hsum : ∀ F : Train.Batch Cells → ℝ, (mbs.map fun mb => F mb / divisor c mb).sum = k * ((mbs.map F).sum / divisor c b) := by
    intro F
    rw [List.map_congr_left (g := fun mb => F mb / (divisor c b / k)) fun mb hm => by rw [hdiv mb hm], list_sum_div, div_div_eq_mul_div]
    ring
  refine ⟨a1, ak, _, _, e1, ek, ?_, m1, ?_⟩
  · rw [g1, gk, List.map_congr_left (g := fun mb => ((k : ℝ) * (divisor c b)⁻¹) • fderiv ℝ (undivided c Y mb) p)
      fun mb hm => by rw [hdiv mb hm, inv_div, div_eq_mul_inv], list_smul_sum, mul_smul]
  · intro d
    rw [mk, hsum, hsum]

theorem micro_divisor (c : Cfg P n m V) (b : Train.Batch Cells) (B s i : Nat) (hb : Rect b B) (hi : i * s + s ≤ B) (mb : Train.Batch Cells)
    (hmb : Train.getMicrobatch s i b = .ok mb) :
    divisor c mb = factor c.lnf (has b "decoder_segment_ids") (has b "decoder_loss_weights") (((rowsOf n m b).drop (i * s)).take s) := by
  rw [Train.getMicrobatch_ok b B s i hb.2 hi] at hmb
  cases hmb
  have e := micro_rows (n := n) (m := m) b B s i hb hi
  unfold divisor
  unfold micro at e
  rw [has_micro, has_micro, e]

theorem sum_const {α : Type} (l : List α) (F : α → ℝ) (w : ℝ) (h : ∀ x ∈ l, F x = w) : (l.map F).sum = l.length * w := by
  rw [List.map_congr_left h, List.map_const', List.sum_replicate, nsmul_eq_mul]

/-- C104, `NUM_TOTAL_TARGET_TOKENS`: always `k` times. -/
theorem C104_num_total (split : R → R × R) (c : Cfg P n m V) (hc : c.lnf = .special .numTotal) (Y : P → TrainRow n m → Fin n → Vec V) (p : P)
    (b : Train.Batch Cells) (B k : Nat) (rng : R) (hb : Rect b B) (hk : 1 < k) (hd : k ∣ B) (h : Smooth c Y b p) :
    ∃ (a1 ak : Train.Accum ℝ (P →L[ℝ] ℝ) Unit) (l z : ℝ), Train.accumulate split (lossGrad c) p none b rng none = .ok a1 ∧
      Train.accumulate split (lossGrad c) p none b rng (some k) = .ok ak ∧
      ak.grad = (k : ℝ) • a1.grad ∧
      (∀ d, Metrics.summarizeDict d 1 a1.metrics = [("loss".toList, .ok l), ("z_loss".toList, .ok z)]) ∧
      ∀ d, Metrics.summarizeDict d 1 ak.metrics = [("loss".toList, .ok (k * l)), ("z_loss".toList, .ok (k * z))] := by
  refine C104_scaled split c (by rw [hc]; intro s e; cases e) Y p b B k rng hb hk hd h ?_
  intro i hi mb hmb
  have hle : i * (B / k) + B / k ≤ B := by
    have := Nat.mul_le_mul_right (B / k) (show i + 1 ≤ k by omega)
    rw [Nat.add_mul, Nat.one_mul, Nat.mul_div_cancel' hd] at this
    exact this
  rw [micro_divisor c b B _ i hb hle mb hmb]
  unfold divisor factor
  rw [hc]
  simp only
  rw [List.length_take, List.length_drop, rows_length b B hb, Nat.min_eq_left (by omega)]
  have hk0 : (k : ℝ) ≠ 0 := by exact_mod_cast (by omega : k ≠ 0)
  rw [eq_div_iff hk0]
  have : B / k * n * k = B * n := by rw [Nat.mul_right_comm, Nat.div_mul_cancel hd]
  exact_mod_cast this

/-- C104, the other special factors: `k` times if the weights of the tokens have the same sum in each row: so for `AVERAGE_PER_SEQUENCE` with one
sequence in each row (`C104_row_weights`), and for `NUM_REAL_TARGET_TOKENS` with rows of equally many tokens. -/
theorem C104_equal_rows (split : R → R × R) (c : Cfg P n m V) (hc : c.lnf = .special .numReal ∨ c.lnf = .special .averagePerSequence)
    (Y : P → TrainRow n m → Fin n → Vec V) (p : P) (b : Train.Batch Cells) (B k : Nat) (rng : R) (hb : Rect b B) (hk : 1 < k) (hd : k ∣ B)
    (h : Smooth c Y b p) (w : ℝ)
    (hw : ∀ r ∈ rowsOf n m b, (tokenWeights c.lnf (has b "decoder_segment_ids") (has b "decoder_loss_weights") r).sum = w) :
    ∃ (a1 ak : Train.Accum ℝ (P →L[ℝ] ℝ) Unit) (l z : ℝ), Train.accumulate split (lossGrad c) p none b rng none = .ok a1 ∧
      Train.accumulate split (lossGrad c) p none b rng (some k) = .ok ak ∧
      ak.grad = (k : ℝ) • a1.grad ∧
      (∀ d, Metrics.summarizeDict d 1 a1.metrics = [("loss".toList, .ok l), ("z_loss".toList, .ok z)]) ∧
      ∀ d, Metrics.summarizeDict d 1 ak.metrics = [("loss".toList, .ok (k * l)), ("z_loss".toList, .ok (k * z))] := by
  refine C104_scaled split c (by intro s e; rcases hc with hc | hc <;> rw [e] at hc <;> cases hc) Y p b B k rng hb hk hd h ?_
  intro i hi mb hmb
  have hle : i * (B / k) + B / k ≤ B := by
    have := Nat.mul_le_mul_right (B / k) (show i + 1 ≤ k by omega)
    rw [Nat.add_mul, Nat.one_mul, Nat.mul_div_cancel' hd] at this
    exact this
  rw [micro_divisor c b B _ i hb hle mb hmb]
  have hf : ∀ rows : List (TrainRow n m), factor c.lnf (has b "decoder_segment_ids") (has b "decoder_loss_weights") rows =
      (rows.map fun r => (tokenWeights c.lnf (has b "decoder_segment_ids") (has b "decoder_loss_weights") r).sum).sum := by
    intro rows
    rcases hc with hc | hc <;> rw [hc] <;> rfl
  unfold divisor
  rw [hf, hf, sum_const _ _ w fun r hr => hw r (List.mem_of_mem_drop (List.mem_of_mem_take hr)), sum_const _ _ w hw,
    List.length_take, List.length_drop, rows_length b B hb, Nat.min_eq_left (by omega)]
  have hk0 : (k : ℝ) ≠ 0 := by exact_mod_cast (by omega : k ≠ 0)
  rw [eq_div_iff hk0]
  have : ((B / k * k : ℕ) : ℝ) = (B : ℕ) := by rw [Nat.div_mul_cancel hd]
  push_cast at this
  rw [mul_right_comm, this]

/-- C104: with `AVERAGE_PER_SEQUENCE` and one sequence in each row, the weights of a row with a token that counts sum to 1. -/
theorem C104_row_weights (weighted : Bool) (r : TrainRow n m) (hr : (given weighted r).sum ≠ 0) :
    (tokenWeights (.special .averagePerSequence) false weighted r).sum = 1 := by
  simp only [tokenWeights, Bool.false_eq_true, if_false]
  rw [list_sum_div (given weighted r) (fun a => a), List.map_id', div_self hr]

/-- C104: a string names a special factor. -/
theorem C104_str (c : Cfg P n m V) (s : List Char) (x : Special) (hx : LossWeights.convertSpecial s = some x) :
    lossGrad (R := R) { c with lnf := .str s } = lossGrad { c with lnf := .special x } := by
  have : ∀ b, LossWeights.lnfAndWeights (.str s) b = LossWeights.lnfAndWeights (K := ℝ) (.special x) b := by
    intro b
    simp only [LossWeights.lnfAndWeights, hx, Option.map_some]
  unfold lossGrad lossOf lossFn
  simp only [this]

end main

/-! The hypotheses are met, and the gradient does change. -/

/-- A model with one parameter, the logit of token 1; token 0 has logit 0. -/
def demoY (q : ℝ) : Fin 1 → Vec 2 := fun _ v => if v = 1 then q else 0

def demo (lnf : LNF ℝ) : Cfg ℝ 1 0 2 := ⟨fun q _ _ => some (demoY q), lnf, 0, 0⟩

/-- Two examples with target 1. -/
def demoBatch : Train.Batch Cells := [("decoder_target_tokens".toList, [.ints [1], .ints [1]])]

theorem demo_rect : Rect demoBatch 2 := ⟨by simp [demoBatch], by simp [demoBatch]⟩

theorem demo_smooth (lnf : LNF ℝ) (p : ℝ) : Smooth (demo lnf) (fun q _ => demoY q) demoBatch p := by
  refine ⟨Filter.Eventually.of_forall fun q r _ => rfl, fun r _ i v => ?_⟩
  unfold demoY
  split_ifs
  · exact differentiableAt_id
  · exact differentiableAt_const _

theorem feature_head (name : String) (v : Option Cells) (x : Example Cells) : feature ((name.toList, v) :: x) name = v := by
  simp only [feature, List.find?_cons, beq_self_eq_true, Option.bind_some]

theorem demo_rows : rowsOf 1 0 demoBatch =
    List.replicate 2 (readRow 1 0 [("decoder_target_tokens".toList, some (.ints [1]))]) := by
  simp only [rowsOf, toTrainBatch, demoBatch, batchSize, examples, List.length_cons, List.length_nil, List.range_succ, List.range_zero,
    List.nil_append, List.cons_append, List.map_cons, List.map_nil, Train.Spec.exampleAt, List.getElem?_cons_zero, List.getElem?_cons_succ,
    List.replicate_succ, List.replicate_zero, Nat.zero_add]

theorem demo_row (r : TrainRow 1 0) (hr : r ∈ rowsOf 1 0 demoBatch) : r.decTargets 0 = 1 := by
  rw [demo_rows] at hr
  rw [List.eq_of_mem_replicate hr]
  simp only [readRow, feature_head]
  rfl

theorem demo_has : has demoBatch "decoder_segment_ids" = false ∧ has demoBatch "decoder_loss_weights" = false := by
  constructor <;> decide

theorem demo_weights (x : Special) (r : TrainRow 1 0) (hr : r ∈ rowsOf 1 0 demoBatch) :
    tokenWeights (.special x) false false r = [1] := by
  have := demo_row r hr
  cases x <;> simp [tokenWeights, given, this]

/-- C104: with each special factor there are a model and a batch for which two microbatches give another gradient than one batch. -/
theorem C104_differs (x : Special) (split : R → R × R) (rng : R) :
    ∃ a1 ak, Train.accumulate split (lossGrad (demo (.special x))) 0 none demoBatch rng none = .ok a1 ∧
      Train.accumulate split (lossGrad (demo (.special x))) 0 none demoBatch rng (some 2) = .ok ak ∧ ak.grad ≠ a1.grad := by
  have hs := demo_smooth (.special x) 0
  have hw : ∀ r ∈ rowsOf 1 0 demoBatch,
      (tokenWeights (.special x) (has demoBatch "decoder_segment_ids") (has demoBatch "decoder_loss_weights") r).sum = 1 := by
    intro r hr
    rw [demo_has.1, demo_has.2, demo_weights x r hr]
    simp
  have key : ∃ (a1 ak : Train.Accum ℝ (ℝ →L[ℝ] ℝ) Unit) (l z : ℝ),
      Train.accumulate split (lossGrad (demo (.special x))) 0 none demoBatch rng none = .ok a1 ∧
      Train.accumulate split (lossGrad (demo (.special x))) 0 none demoBatch rng (some 2) = .ok ak ∧
      ak.grad = ((2 : ℕ) : ℝ) • a1.grad ∧
      (∀ d, Metrics.summarizeDict d 1 a1.metrics = [("loss".toList, .ok l), ("z_loss".toList, .ok z)]) ∧
      ∀ d, Metrics.summarizeDict d 1 ak.metrics = [("loss".toList, .ok ((2 : ℕ) * l)), ("z_loss".toList, .ok ((2 : ℕ) * z))] := by
    cases x with
    | numTotal => exact C104_num_total split _ rfl _ 0 demoBatch 2 2 rng demo_rect (by omega) (dvd_refl 2) hs
    | numReal => exact C104_equal_rows split _ (Or.inl rfl) _ 0 demoBatch 2 2 rng demo_rect (by omega) (dvd_refl 2) hs 1 hw
    | averagePerSequence => exact C104_equal_rows split _ (Or.inr rfl) _ 0 demoBatch 2 2 rng demo_rect (by omega) (dvd_refl 2) hs 1 hw
  obtain ⟨a1, ak, -, -, e1, ek, hg, -, -⟩ := key
  refine ⟨a1, ak, e1, ek, ?_⟩
  have hne : a1.grad ≠ 0 := by
    rw [(accumulate_loss split _ 0 demoBatch 2 2 demo_rect rng (by omega) (dvd_refl 2)).1] at e1
    cases e1
    dsimp only
    have hl : (fun q => (lossOf (demo (.special x)) demoBatch q).1) = fun q => Real.log (1 + Real.exp q) - q := by
      funext q
      rw [lossOf_eq (demo (.special x)) (by intro s e; cases e) (fun q _ => demoY q) demoBatch q (fun r _ => rfl)]
      have hlen : (rowsOf 1 0 demoBatch).length = 2 := rows_length demoBatch 2 demo_rect
      have hdv : divisor (demo (.special x)) demoBatch = 2 := by
        unfold divisor demo
        dsimp only
        cases x with
        | numTotal => simp [factor, hlen]
        | numReal =>
          show ((rowsOf 1 0 demoBatch).map fun r => (tokenWeights (.special .numReal) _ _ r).sum).sum = 2
          rw [sum_const _ _ 1 hw, hlen]; norm_num
        | averagePerSequence =>
          show ((rowsOf 1 0 demoBatch).map fun r => (tokenWeights (.special .averagePerSequence) _ _ r).sum).sum = 2
          rw [sum_const _ _ 1 hw, hlen]; norm_num
      have hu : undivided (demo (.special x)) (fun q _ => demoY q) demoBatch q = 2 * (Real.log (1 + Real.exp q) - q) := by
        unfold undivided
        rw [sum_const _ _ (Real.log (1 + Real.exp q) - q), hlen]
        · norm_num
        · intro r hr
          unfold rowLoss demo
          dsimp only
          rw [demo_has.1, demo_has.2, demo_weights x r hr]
          simp [demo_row r hr, position, Loss.crossEntropy, Loss.logsumexp, Loss.lowConfidence, Loss.normConst, demoY, Fin.sum_univ_two]
      dsimp only
      rw [hu, hdv]
      ring
    rw [hl]
    have hd : HasDerivAt (fun q : ℝ => Real.log (1 + Real.exp q) - q) (Real.exp 0 / (1 + Real.exp 0) - 1) 0 := by
      refine HasDerivAt.sub ?_ (hasDerivAt_id 0)
      exact ((Real.hasDerivAt_exp 0).const_add 1).log (by positivity)
    rw [hd.hasFDerivAt.fderiv]
    intro h0
    have := congrArg (fun L : ℝ →L[ℝ] ℝ => L 1) h0
    simp at this
    norm_num at this
  rw [hg]
  intro h
  apply hne
  have : ((2 : ℕ) : ℝ) • a1.grad - a1.grad = 0 := by rw [h, sub_self]
  rw [Nat.cast_ofNat, two_smul, add_sub_cancel_right] at this
  exact this

example : ∃ a1 ak, Train.accumulate (fun r : Nat => (r, r)) (lossGrad (demo .none)) 0 none demoBatch 0 none = .ok a1 ∧
    Train.accumulate (fun r => (r, r)) (lossGrad (demo .none)) 0 none demoBatch 0 (some 2) = .ok ak ∧
    ak.grad = a1.grad ∧ ∀ d, Metrics.summarizeDict d 1 ak.metrics = Metrics.summarizeDict d 1 a1.metrics :=
  C104_constant _ _ (Or.inl rfl) _ 0 demoBatch 2 2 0 demo_rect (by omega) (dvd_refl 2) (demo_smooth .none 0)

example (r : TrainRow 1 0) (hr : r ∈ rowsOf 1 0 demoBatch) : (tokenWeights (.special .averagePerSequence) false false r).sum = 1 :=
  C104_row_weights false r (by simp [given, demo_row r hr])

example (c : Cfg ℝ 1 0 2) : lossGrad (R := Nat) { c with lnf := .str "average_per_sequence".toList } =
    lossGrad { c with lnf := .special .averagePerSequence } := C104_str c _ _ (by decide)

end Verif.MicroLoss
