import Verif.Model.AdafactorNum
import Verif.Props.Adafactor
import Mathlib.Algebra.BigOperators.Field
/- C91: the numbers of Adafactor. -/
namespace Verif.AdafactorNum
open Verif.ND Verif.Adafactor Verif.Adafactor.Spec

namespace Spec

/-- The mean of `f` over the indices that differ from `i` at most in the dimensions `dims`. -/
noncomputable def mean (s dims : List Nat) (f : List Nat → ℝ) (i : List Nat) : ℝ := ((slice s dims i).map f).sum / (slice s dims i).length

/-- The root of the mean square. -/
noncomputable def rmsOf (s dims : List Nat) (f : List Nat → ℝ) (i : List Nat) : ℝ := √(mean s dims (fun j => f j ^ 2) i)

/-- The decay at a step. -/
noncomputable def decayAt (H : HP ℝ) (step : Int) : ℝ := 1 - (((step - H.stepOffset : Int) : ℝ) + 1) ^ (-H.decayRate)

/-- The moving average of the squared gradients after a number of steps, element by element. -/
noncomputable def secondMoment : Int → List (HP ℝ × NDArray ℝ) → (List Nat → ℝ) → List Nat → ℝ
  | _, [], v => v
  | step, (H, g) :: l, v => secondMoment (step + 1) l fun i => decayAt H step * v i + (1 - decayAt H step) * (g.get i ^ 2 + H.eps1)

/-- The step size for the parameter element `i`. -/
noncomputable def size (H : HP ℝ) (lr : ℝ) (s avg : List Nat) (p : List Nat → ℝ) (i : List Nat) : ℝ :=
  lr * (if H.mulByScale then (match H.maxScale with
    | none => max (rmsOf s avg p i) H.eps2
    | some c => min (max (rmsOf s avg p i) H.eps2) c) else 1)

/-- The accumulators are not negative. -/
def Nonneg (st : PState ℝ) : Prop := (∀ i, 0 ≤ st.vRow.get i) ∧ (∀ i, 0 ≤ st.vCol.get i) ∧ ∀ i, 0 ≤ st.v.get i

/-- The accumulators hold the second moments `V`, or their means over the column and row dimensions. -/
def Holds (s : List Nat) (d : Dims) (st : PState ℝ) (V : List Nat → ℝ) : Prop :=
  ((∀ d1 d0, d ≠ .dims d1 d0) → ∀ i, InBox s i → st.v.get i = V i) ∧
  ∀ d1 d0, d = .dims d1 d0 → ∀ i, InBox s i → st.vRow.get (del d0 i) = mean s d0 V i ∧ st.vCol.get (del d1 i) = mean s d1 V i

/-- The second moments after a step. -/
noncomputable def moment (H : HP ℝ) (step : Int) (V g : List Nat → ℝ) (i : List Nat) : ℝ :=
  decayAt H step * V i + (1 - decayAt H step) * (g i ^ 2 + H.eps1)

/-- What is used for the second moment `V` of a parameter: itself, or the product of its means over columns and rows, divided by its mean. -/
noncomputable def estimate (s : List Nat) (d : Dims) (V : List Nat → ℝ) (i : List Nat) : ℝ :=
  match d with
  | .dims d1 d0 => mean s d0 V i * mean s d1 V i / mean s d1 (mean s d0 V) i
  | _ => V i

/-- The step before momentum and weight decay: the gradient divided by the root of its second moment, clipped and scaled. -/
noncomputable def step1 (H : HP ℝ) (lr : ℝ) (s avg : List Nat) (p y : List Nat → ℝ) (i : List Nat) : ℝ :=
  size H lr s avg p i * (y i / match H.clip with
    | none => 1
    | some c => max 1 (rmsOf s avg y i / c))

end Spec
open Spec

/-! ### The decay -/

/-- **C91**: from `step_offset` on the decay is at least 0 and below 1; at `step_offset` it is 0; and it grows. -/
theorem C91_decay (H : HP ℝ) (he : 0 < H.decayRate) (step : Int) (hs : H.stepOffset ≤ step) :
    0 ≤ decayAt H step ∧ decayAt H step < 1 ∧ (step = H.stepOffset → decayAt H step = 0) ∧ decayAt H step ≤ decayAt H (step + 1) := by
  have h0 : (0 : ℝ) ≤ ((step - H.stepOffset : Int) : ℝ) := by exact_mod_cast (by omega : (0 : Int) ≤ step - H.stepOffset)
  have h1 : (1 : ℝ) ≤ ((step - H.stepOffset : Int) : ℝ) + 1 := by linarith
  have hpos : 0 < (((step - H.stepOffset : Int) : ℝ) + 1) ^ (-H.decayRate) := Real.rpow_pos_of_pos (by linarith) _
  refine ⟨?_, ?_, ?_, ?_⟩
  · unfold decayAt
    have := Real.rpow_le_one_of_one_le_of_nonpos h1 (by linarith : -H.decayRate ≤ 0)
    linarith
  · unfold decayAt; linarith
  · rintro rfl
    unfold decayAt
    simp
  · unfold decayAt
    have hle : (((step - H.stepOffset : Int) : ℝ) + 1) ≤ (((step + 1 - H.stepOffset : Int) : ℝ) + 1) := by
      have : ((step - H.stepOffset : Int) : ℝ) ≤ ((step + 1 - H.stepOffset : Int) : ℝ) := by
        exact_mod_cast (by omega : step - H.stepOffset ≤ step + 1 - H.stepOffset)
      linarith
    have := Real.rpow_le_rpow_of_nonpos (by linarith) hle (by linarith : -H.decayRate ≤ 0)
    linarith

/-! ### Lemmas -/

theorem keep_real (H : HP ℝ) (a b : ℝ) : keep realOps H a b = b := by
  unfold keep realOps
  simp

theorem ema_real (d a b : ℝ) : ema realOps d a b = d * a + (1 - d) * b := rfl

theorem sqr_real (H : HP ℝ) (g : List Nat → ℝ) (i : List Nat) : sqr realOps H g i = g i ^ 2 + H.eps1 := by
  unfold sqr realOps
  simp only [id]
  ring

theorem decay_real (H : HP ℝ) (step : Int) : realOps.decayPow (step - H.stepOffset) H.decayRate = decayAt H step := rfl

theorem mean_real (s dims : List Nat) (f : List Nat → ℝ) (i : List Nat) : realOps.mean ((slice s dims i).map f) = mean s dims f i := by
  unfold mean realOps
  simp

theorem rms_real (s dims : List Nat) (f : List Nat → ℝ) (i : List Nat) : rms realOps s dims f i = rmsOf s dims f i := by
  unfold rms rmsOf
  rw [mean_real]
  unfold realOps
  simp only [pow_two]

theorem rowEst_real (H : HP ℝ) (d : ℝ) (s d0 : List Nat) (v g : List Nat → ℝ) (i : List Nat) :
    rowEst realOps H d s d0 v g i = d * v (del d0 i) + (1 - d) * mean s d0 (fun j => g j ^ 2 + H.eps1) i := by
  unfold rowEst
  rw [mean_real, ema_real]
  simp only [show (sqr realOps H g) = (fun j => g j ^ 2 + H.eps1) from funext fun j => sqr_real H g j]

theorem mean_congr {s dims : List Nat} {f g : List Nat → ℝ} {i : List Nat} (h : ∀ j, InBox s j → f j = g j) : mean s dims f i = mean s dims g i := by
  unfold mean
  rw [List.map_congr_left fun j hj => h j ((mem_slice s dims i j).1 hj).1]

theorem mean_lin (s dims : List Nat) (a b : ℝ) (f g : List Nat → ℝ) (i : List Nat) :
    mean s dims (fun j => a * f j + b * g j) i = a * mean s dims f i + b * mean s dims g i := by
  unfold mean
  rw [List.sum_map_add, List.sum_map_mul_left, List.sum_map_mul_left]
  ring

theorem mean_smul (s dims : List Nat) (a : ℝ) (f : List Nat → ℝ) (i : List Nat) : mean s dims (fun j => a * f j) i = a * mean s dims f i := by
  unfold mean
  rw [List.sum_map_mul_left]
  ring

theorem self_mem {s i : List Nat} (dims : List Nat) (h : InBox s i) : i ∈ slice s dims i := (mem_slice s dims i i).2 ⟨h, fun _ _ _ => rfl⟩

theorem len_pos {s i : List Nat} (dims : List Nat) (h : InBox s i) : (0 : ℝ) < (slice s dims i).length := by
  have := List.length_pos_of_mem (self_mem dims h)
  exact_mod_cast this

theorem mean_nonneg {s dims : List Nat} {f : List Nat → ℝ} {i : List Nat} (h : ∀ j, InBox s j → 0 ≤ f j) : 0 ≤ mean s dims f i := by
  unfold mean
  refine div_nonneg (List.sum_nonneg fun x hx => ?_) (Nat.cast_nonneg _)
  obtain ⟨j, hj, rfl⟩ := List.mem_map.1 hx
  exact h j ((mem_slice s dims i j).1 hj).1

theorem mean_le {s dims : List Nat} {f g : List Nat → ℝ} {i : List Nat} (h : ∀ j ∈ slice s dims i, f j ≤ g j) : mean s dims f i ≤ mean s dims g i := by
  unfold mean
  exact div_le_div_of_nonneg_right (List.sum_le_sum h) (Nat.cast_nonneg _)

theorem mean_const {s dims : List Nat} {i : List Nat} (hi : InBox s i) (c : ℝ) : mean s dims (fun _ => c) i = c := by
  unfold mean
  rw [List.map_const', List.sum_replicate, nsmul_eq_mul, mul_div_cancel_left₀ _ (len_pos dims hi).ne']

theorem mean_pos {s dims : List Nat} {f : List Nat → ℝ} {i : List Nat} (hi : InBox s i) (h : ∀ j, InBox s j → 0 < f j) : 0 < mean s dims f i := by
  unfold mean
  refine div_pos ?_ (len_pos dims hi)
  have hle := List.single_le_sum (l := (slice s dims i).map f)
    (fun x hx => by obtain ⟨j, hj, rfl⟩ := List.mem_map.1 hx; exact (h j ((mem_slice s dims i j).1 hj).1).le) (f i) (List.mem_map.2 ⟨i, self_mem dims hi, rfl⟩)
  exact lt_of_lt_of_le (h i hi) hle

theorem slice_eq {s dims i j : List Nat} (h : j ∈ slice s dims i) : slice s dims j = slice s dims i := by
  obtain ⟨_, hj⟩ := (mem_slice s dims i j).1 h
  unfold slice
  apply List.filter_congr
  intro k _
  apply Bool.eq_iff_iff.2
  simp only [List.all_eq_true, List.mem_range, Bool.or_eq_true, List.contains_iff_mem, beq_iff_eq]
  constructor
  · intro h' x hx
    by_cases hd : x ∈ dims
    · exact Or.inl hd
    · exact Or.inr ((h' x hx).resolve_left hd |>.trans (hj x hx hd))
  · intro h' x hx
    by_cases hd : x ∈ dims
    · exact Or.inl hd
    · exact Or.inr ((h' x hx).resolve_left hd |>.trans (hj x hx hd).symm)

theorem mean_slice {s dims i j : List Nat} (h : j ∈ slice s dims i) (f : List Nat → ℝ) : mean s dims f j = mean s dims f i := by
  unfold mean
  rw [slice_eq h]

theorem size_real (H : HP ℝ) (lr : ℝ) (s avg : List Nat) (p : List Nat → ℝ) (i : List Nat) : stepSize realOps H lr s avg p i = size H lr s avg p i := by
  unfold stepSize size
  rw [rms_real]
  unfold realOps
  split_ifs
  · cases H.maxScale <;> rfl
  · simp

theorem clipped_real (c : Option ℝ) (s avg : List Nat) (y : List Nat → ℝ) (i : List Nat) :
    clipped realOps c s avg y i = y i / (match c with
      | none => 1
      | some c => max 1 (rmsOf s avg y i / c)) := by
  unfold clipped
  cases c with
  | none => simp
  | some c => simp only [rms_real]; rfl

theorem subtrahend_real (H : HP ℝ) (lr : ℝ) (s avg : List Nat) (p m y : List Nat → ℝ) (i : List Nat) :
    subtrahend realOps H lr s avg p m y i = (match H.beta1 with
      | none => size H lr s avg p i * clipped realOps H.clip s avg y i
      | some b => b * m i + (1 - b) * (size H lr s avg p i * clipped realOps H.clip s avg y i)) := by
  unfold subtrahend
  rw [size_real]
  cases H.beta1 <;> rfl

theorem newParam_real (H : HP ℝ) (lr : ℝ) (s avg : List Nat) (p m y : List Nat → ℝ) (i : List Nat) :
    newParam realOps H lr s avg p m y i = (match effDecay realOps H lr with
      | none => p i
      | some w => (1 - w) * p i) - subtrahend realOps H lr s avg p m y i := by
  unfold newParam
  cases effDecay realOps H lr <;> rfl

/-! ### The second moments -/

theorem holds_step (D : Def) (H : HP ℝ) (step : Int) (path : List Char) (param grad : NDArray ℝ) (st init : PState ℝ) (avg : List Nat) (d : Dims)
    (x : NDArray ℝ × PState ℝ) (hs : ∀ l, (D.argsort l).Perm (List.range l.length)) (hd : dimsFor D path param.shape = .ok (avg, d))
    (hg : grad.shape = param.shape) (hi : initParam realOps D H.beta1.isSome path param.shape = .ok init) (hst : ShapesOf st init)
    (V : List Nat → ℝ) (hV : Holds param.shape d st V) (hx : applyParam realOps D H step path param st grad = .ok x) :
    x.1.shape = param.shape ∧ ShapesOf x.2 init ∧
      Holds param.shape d x.2 fun i => decayAt H step * V i + (1 - decayAt H step) * (grad.get i ^ 2 + H.eps1) := by
  cases hlr : H.learningRate with
  | none => simp only [applyParam, hlr] at hx; cases hx
  | some lr =>
    obtain ⟨avg', d', np, st', hd', he, hnp, hst', hF, hU⟩ := C48_update realOps D H step path param grad st init lr hs hlr hg hi hst
    rw [hd] at hd'
    simp only [Except.ok.injEq, Prod.mk.injEq] at hd'
    obtain ⟨rfl, rfl⟩ := hd'
    rw [hx] at he
    simp only [Except.ok.injEq] at he
    subst he
    refine ⟨hnp, hst', fun hne i hb => ?_, fun d1 d0 hdd i hb => ?_⟩
    · obtain ⟨_, h, _⟩ := hU hne i hb
      rw [keep_real, ema_real, sqr_real, hV.1 hne i hb, decay_real] at h
      exact h
    · obtain ⟨_, h1, h2, _⟩ := hF d1 d0 hdd i hb
      rw [keep_real, rowEst_real, decay_real, (hV.2 d1 d0 hdd i hb).1] at h1
      rw [keep_real, rowEst_real, decay_real, (hV.2 d1 d0 hdd i hb).2] at h2
      rw [h1, h2, mean_lin, mean_lin]
      exact ⟨rfl, rfl⟩

/-- **C91**: after any number of steps the accumulators of an unfactored parameter are the moving averages of its squared gradients, and those of a
factored one are exactly the means of these moving averages over the columns and over the rows. -/
theorem C91_accumulators (D : Def) (path : List Char) (momentum : Bool) (init : PState ℝ) (s avg : List Nat) (d : Dims)
    (hs : ∀ l, (D.argsort l).Perm (List.range l.length)) (hd : dimsFor D path s = .ok (avg, d)) (hi : initParam realOps D momentum path s = .ok init)
    (l : List (HP ℝ × NDArray ℝ)) (hl : ∀ x ∈ l, x.1.beta1.isSome = momentum ∧ x.2.shape = s) (step : Int) (p : NDArray ℝ) (hp : p.shape = s)
    (x : NDArray ℝ × PState ℝ) (hx : run realOps D path step l (p, init) = .ok x) :
    ((∀ d1 d0, d ≠ .dims d1 d0) → ∀ i, InBox s i → x.2.v.get i = secondMoment step l (fun _ => 0) i) ∧
    ∀ d1 d0, d = .dims d1 d0 → ∀ i, InBox s i →
      x.2.vRow.get (del d0 i) = mean s d0 (secondMoment step l fun _ => 0) i ∧ x.2.vCol.get (del d1 i) = mean s d1 (secondMoment step l fun _ => 0) i := by
  have main : ∀ (l : List (HP ℝ × NDArray ℝ)) (step : Int) (p : NDArray ℝ) (st : PState ℝ) (V : List Nat → ℝ), p.shape = s → ShapesOf st init →
      (∀ x ∈ l, x.1.beta1.isSome = momentum ∧ x.2.shape = s) → Holds s d st V → ∀ x, run realOps D path step l (p, st) = .ok x →
      Holds s d x.2 (secondMoment step l V) := by
    intro l
    induction l with
    | nil => intro step p st V _ _ _ hV x hx; cases hx; exact hV
    | cons a l ih =>
      obtain ⟨H, g⟩ := a
      intro step p st V hp hst hl hV x hx
      obtain ⟨h1, h2⟩ := hl (H, g) (by simp)
      dsimp only at h1 h2
      simp only [run] at hx
      cases hy : applyParam realOps D H step path p st g with
      | error e => rw [hy] at hx; cases hx
      | ok y =>
        rw [hy] at hx
        obtain ⟨k1, k2, k3⟩ := holds_step D H step path p g st init avg d y hs (by rw [hp]; exact hd) (by rw [h2, hp]) (by rw [hp, h1]; exact hi) hst V
          (by rw [hp]; exact hV) hy
        rw [hp] at k1 k3
        exact ih (step + 1) y.1 y.2 _ k1 k2 (fun z hz => hl z (by simp [hz])) k3 x hx
  refine main l step p init (fun _ => 0) hp ⟨rfl, rfl, rfl, rfl⟩ hl ?_ x hx
  have hz : ∀ (t dims i : List Nat), mean t dims (fun _ => (0 : ℝ)) i = 0 := by
    intro t dims i
    unfold mean
    simp
  unfold initParam at hi
  rw [hd] at hi
  refine ⟨fun hne i _ => ?_, fun d1 d0 hdd i _ => ?_⟩
  · cases d with
    | dims d1 d0 => exact absurd rfl (hne d1 d0)
    | unfactored => simp only [Except.ok.injEq] at hi; rw [← hi]; rfl
    | heuristic => simp only [Except.ok.injEq] at hi; rw [← hi]; rfl
  · subst hdd
    simp only [Except.ok.injEq] at hi
    rw [← hi, hz, hz]
    exact ⟨rfl, rfl⟩

/-! ### One step -/

theorem moment_pos (H : HP ℝ) (he : 0 < H.decayRate) (h1 : 0 < H.eps1) (step : Int) (hs : H.stepOffset ≤ step) (V g : List Nat → ℝ) (i : List Nat)
    (hV : 0 ≤ V i) : 0 < moment H step V g i := by
  obtain ⟨a, b, _⟩ := C91_decay H he step hs
  unfold moment
  have := sq_nonneg (g i)
  have : 0 < (1 - decayAt H step) * (g i ^ 2 + H.eps1) := mul_pos (by linarith) (by linarith)
  have := mul_nonneg a hV
  linarith

theorem estimate_pos (s : List Nat) (d : Dims) (V : List Nat → ℝ) (hV : ∀ j, InBox s j → 0 < V j) (i : List Nat) (hi : InBox s i) : 0 < estimate s d V i := by
  unfold estimate
  cases d with
  | dims d1 d0 => exact div_pos (mul_pos (mean_pos hi hV) (mean_pos hi hV)) (mean_pos hi fun j hj => mean_pos hj hV)
  | unfactored => exact hV i hi
  | heuristic => exact hV i hi

/-- **C91**: one step, whatever has been before.  If the accumulators hold non-negative second moments `V` (which they do, by `C91_accumulators`),
the parameter is decayed and moved by the gradient over the root of the estimated second moment, clipped, scaled and averaged by momentum. -/
theorem C91_step (D : Def) (H : HP ℝ) (step : Int) (path : List Char) (param grad : NDArray ℝ) (st init : PState ℝ) (lr : ℝ) (avg : List Nat) (d : Dims)
    (hs : ∀ l, (D.argsort l).Perm (List.range l.length)) (hd : dimsFor D path param.shape = .ok (avg, d)) (hlr : H.learningRate = some lr)
    (hg : grad.shape = param.shape) (hi : initParam realOps D H.beta1.isSome path param.shape = .ok init) (hst : ShapesOf st init)
    (V : List Nat → ℝ) (hV : Holds param.shape d st V) (hV0 : ∀ i, InBox param.shape i → 0 ≤ V i) (he : 0 < H.decayRate) (h1 : 0 < H.eps1)
    (ho : H.stepOffset ≤ step) :
    ∃ (x : NDArray ℝ × PState ℝ) (u : List Nat → ℝ), applyParam realOps D H step path param st grad = .ok x ∧ x.1.shape = param.shape ∧
      (∀ i, InBox param.shape i → u i = step1 H lr param.shape avg param.get
        (fun j => grad.get j / √(estimate param.shape d (moment H step V grad.get) j)) i) ∧
      (∀ i, InBox param.shape i → 0 < estimate param.shape d (moment H step V grad.get) i) ∧
      (H.beta1 = none → ∀ i, InBox param.shape i → x.1.get i = (1 - (effDecay realOps H lr).getD 0) * param.get i - u i) ∧
      ∀ b, H.beta1 = some b → ∀ i, InBox param.shape i → x.2.m.get i = b * st.m.get i + (1 - b) * u i ∧
        x.1.get i = (1 - (effDecay realOps H lr).getD 0) * param.get i - x.2.m.get i := by
  obtain ⟨avg', d', np, st', hd', hx, hnp, hst', hF, hU⟩ := C48_update realOps D H step path param grad st init lr hs hlr hg hi hst
  rw [hd] at hd'
  simp only [Except.ok.injEq, Prod.mk.injEq] at hd'
  obtain ⟨rfl, rfl⟩ := hd'
  have hm : ∀ j, InBox param.shape j → 0 < moment H step V grad.get j := fun j hj => moment_pos H he h1 step ho V _ j (hV0 j hj)
  refine ⟨(np, st'), step1 H lr param.shape avg param.get (fun j => grad.get j / √(estimate param.shape d (moment H step V grad.get) j)), hx, hnp,
    fun _ _ => rfl, estimate_pos _ d _ hm, ?_⟩
  -- the gradient over the root of the estimate
  have key : ∃ y : List Nat → ℝ, (∀ i, InBox param.shape i → y i = grad.get i / √(estimate param.shape d (moment H step V grad.get) i)) ∧
      ∀ i, InBox param.shape i → np.get i = newParam realOps H lr param.shape avg param.get st.m.get y i ∧
        (H.beta1.isSome = true → st'.m.get i = subtrahend realOps H lr param.shape avg param.get st.m.get y i) := by
    by_cases hdd : ∃ d1 d0, d = .dims d1 d0
    · obtain ⟨d1, d0, rfl⟩ := hdd
      refine ⟨yFactored realOps H (realOps.decayPow (step - H.stepOffset) H.decayRate) param.shape d1 d0 st.vRow.get st.vCol.get grad.get, ?_, fun i hb => ?_⟩
      rotate_left
      · obtain ⟨f1, _, _, f4⟩ := hF d1 d0 rfl i hb
        rw [keep_real] at f1
        exact ⟨f1, fun h => by rw [f4 h, keep_real]; rfl⟩
      · intro i hb
        have hr : ∀ j, InBox param.shape j → rowEst realOps H (decayAt H step) param.shape d0 st.vRow.get grad.get j =
            mean param.shape d0 (moment H step V grad.get) j := fun j hj => by
          rw [rowEst_real, (hV.2 d1 d0 rfl j hj).1, ← mean_lin]; rfl
        have hc : rowEst realOps H (decayAt H step) param.shape d1 st.vCol.get grad.get i = mean param.shape d1 (moment H step V grad.get) i := by
          rw [rowEst_real, (hV.2 d1 d0 rfl i hb).2, ← mean_lin]; rfl
        rw [decay_real]
        unfold yFactored estimate
        rw [mean_real, hr i hb, hc, mean_congr hr]
        have p1 : 0 < mean param.shape d0 (moment H step V grad.get) i := mean_pos hb hm
        have p2 : 0 < mean param.shape d1 (moment H step V grad.get) i := mean_pos hb hm
        have p3 : 0 < mean param.shape d1 (mean param.shape d0 (moment H step V grad.get)) i := mean_pos hb fun j hj => mean_pos hj hm
        show grad.get i * (√(_ / _))⁻¹ * (√_)⁻¹ = _
        rw [mul_assoc, ← mul_inv, ← Real.sqrt_mul (div_pos p1 p3).le, div_mul_eq_mul_div, ← div_eq_mul_inv]
    · have hne : ∀ d1 d0, d ≠ .dims d1 d0 := fun d1 d0 h => hdd ⟨d1, d0, h⟩
      refine ⟨yPlain realOps H (realOps.decayPow (step - H.stepOffset) H.decayRate) st.v.get grad.get, ?_, fun i hb => ?_⟩
      rotate_left
      · obtain ⟨f1, _, f4⟩ := hU hne i hb
        rw [keep_real] at f1
        exact ⟨f1, fun h => by rw [f4 h, keep_real]; rfl⟩
      · intro i hb
        rw [decay_real]
        unfold yPlain
        rw [ema_real, sqr_real, hV.1 hne i hb]
        have : estimate param.shape d (moment H step V grad.get) i = moment H step V grad.get i := by
          cases d with
          | dims d1 d0 => exact absurd rfl (hne d1 d0)
          | unfactored => rfl
          | heuristic => rfl
        rw [this]
        exact (div_eq_mul_inv _ _).symm
  obtain ⟨y, hy, hn⟩ := key
  have hcl : ∀ i, InBox param.shape i → size H lr param.shape avg param.get i * clipped realOps H.clip param.shape avg y i =
      step1 H lr param.shape avg param.get (fun j => grad.get j / √(estimate param.shape d (moment H step V grad.get) j)) i := by
    intro i hb
    unfold step1
    rw [clipped_real, hy i hb]
    have : rmsOf param.shape avg y i = rmsOf param.shape avg (fun j => grad.get j / √(estimate param.shape d (moment H step V grad.get) j)) i := by
      unfold rmsOf
      rw [mean_congr fun j hj => by rw [hy j hj]]
    rw [this]
  have hdec : ∀ i, (match effDecay realOps H lr with
      | none => param.get i
      | some w => (1 - w) * param.get i) = (1 - (effDecay realOps H lr).getD 0) * param.get i := by
    intro i
    cases effDecay realOps H lr <;> simp
  refine ⟨fun hb1 i hb => ?_, fun b hb1 i hb => ?_⟩
  · rw [(hn i hb).1, newParam_real, subtrahend_real, hb1, hdec]
    simp only
    rw [hcl i hb]
  · have h2 := (hn i hb).2 (by rw [hb1]; rfl)
    refine ⟨?_, ?_⟩
    · rw [h2, subtrahend_real, hb1]
      simp only
      rw [hcl i hb]
    · rw [(hn i hb).1, newParam_real, hdec, h2]

/-! ### The size and direction of a step -/

theorem rms_smul (s dims : List Nat) (a : ℝ) (ha : 0 ≤ a) (f : List Nat → ℝ) (i : List Nat) (g : List Nat → ℝ) (h : ∀ j ∈ slice s dims i, g j = a * f j) :
    rmsOf s dims g i = a * rmsOf s dims f i := by
  have : mean s dims (fun j => g j ^ 2) i = a ^ 2 * mean s dims (fun j => f j ^ 2) i := by
    rw [← mean_smul]
    unfold mean
    rw [List.map_congr_left fun j hj => by rw [h j hj, mul_pow]]
  unfold rmsOf
  rw [this, Real.sqrt_mul (sq_nonneg a), Real.sqrt_sq ha]

theorem size_slice (H : HP ℝ) (lr : ℝ) {s avg i j : List Nat} (p : List Nat → ℝ) (h : j ∈ slice s avg i) : size H lr s avg p j = size H lr s avg p i := by
  unfold size rmsOf
  rw [mean_slice h]

theorem size_nonneg (H : HP ℝ) (lr : ℝ) (hlr : 0 ≤ lr) (hc : ∀ c, H.maxScale = some c → 0 ≤ c) (s avg : List Nat) (p : List Nat → ℝ) (i : List Nat) :
    0 ≤ size H lr s avg p i := by
  unfold size
  refine mul_nonneg hlr ?_
  split_ifs
  · cases hm : H.maxScale with
    | none => exact le_max_of_le_left (Real.sqrt_nonneg _)
    | some c => exact le_min (le_max_of_le_left (Real.sqrt_nonneg _)) (hc c hm)
  · exact zero_le_one

/-- With a clipping threshold `c` the root mean square of the step of a parameter (of each member of a batched parameter) is at most `c` times the
step size, whatever gradients there have been. -/
theorem bounded_aux (H : HP ℝ) (lr c : ℝ) (hlr : 0 ≤ lr) (hm : ∀ c, H.maxScale = some c → 0 ≤ c) (hc : H.clip = some c) (hc0 : 0 < c) (s avg : List Nat)
    (p y : List Nat → ℝ) (i : List Nat) : rmsOf s avg (step1 H lr s avg p y) i ≤ c * size H lr s avg p i := by
  have hpos : 0 < max 1 (rmsOf s avg y i / c) := lt_of_lt_of_le zero_lt_one (le_max_left _ _)
  have hsz := size_nonneg H lr hlr hm s avg p i
  rw [rms_smul s avg (size H lr s avg p i / max 1 (rmsOf s avg y i / c)) (div_nonneg hsz hpos.le) y i]
  · rw [div_mul_eq_mul_div, div_le_iff₀ hpos, mul_comm c, mul_assoc]
    refine mul_le_mul_of_nonneg_left ?_ hsz
    have : rmsOf s avg y i / c ≤ max 1 (rmsOf s avg y i / c) := le_max_right _ _
    rw [div_le_iff₀ hc0] at this
    linarith
  · intro j hj
    unfold step1
    rw [hc]
    simp only
    have : rmsOf s avg y j = rmsOf s avg y i := by unfold rmsOf; rw [mean_slice hj]
    rw [size_slice H lr p hj, this]
    ring

/-- With momentum the accumulated step stays within any bound that the single steps keep. -/
theorem momentum_aux (s avg : List Nat) (b B : ℝ) (hb0 : 0 ≤ b) (hb1 : b ≤ 1) (m u m' : List Nat → ℝ) (i : List Nat)
    (hm' : ∀ j ∈ slice s avg i, m' j = b * m j + (1 - b) * u j) (hm : rmsOf s avg m i ≤ B) (hu : rmsOf s avg u i ≤ B) : rmsOf s avg m' i ≤ B := by
  have hB : 0 ≤ B := le_trans (Real.sqrt_nonneg _) hm
  unfold rmsOf at hm hu ⊢
  rw [Real.sqrt_le_left hB] at hm hu ⊢
  have hle : mean s avg (fun j => m' j ^ 2) i ≤ mean s avg (fun j => b * m j ^ 2 + (1 - b) * u j ^ 2) i := by
    refine mean_le fun j hj => ?_
    rw [hm' j hj]
    nlinarith [mul_nonneg hb0 (by linarith : (0 : ℝ) ≤ 1 - b), sq_nonneg (m j - u j), mul_nonneg (mul_nonneg hb0 (by linarith : (0 : ℝ) ≤ 1 - b)) (sq_nonneg (m j - u j))]
  rw [mean_lin] at hle
  nlinarith

/-- Every element moves against its gradient. -/
theorem sign_aux (H : HP ℝ) (lr : ℝ) (hlr : 0 < lr) (h2 : 0 < H.eps2) (hm : ∀ c, H.maxScale = some c → 0 < c) (s avg : List Nat) (p g : List Nat → ℝ)
    (v : List Nat → ℝ) (i : List Nat) (hv : 0 < v i) (hg : g i ≠ 0) : 0 < step1 H lr s avg p (fun j => g j / √(v j)) i * g i := by
  have hsz : 0 < size H lr s avg p i := by
    unfold size
    refine mul_pos hlr ?_
    split_ifs
    · cases hx : H.maxScale with
      | none => exact lt_max_of_lt_right h2
      | some c => exact lt_min (lt_max_of_lt_right h2) (hm c hx)
    · exact zero_lt_one
  have hden : ∀ r : ℝ, 0 < (match H.clip with
      | none => (1 : ℝ)
      | some c => max 1 (r / c)) := by
    intro r
    cases H.clip with
    | none => exact zero_lt_one
    | some c => exact lt_of_lt_of_le zero_lt_one (le_max_left _ _)
  unfold step1
  have h3 := hden (rmsOf s avg (fun j => g j / √(v j)) i)
  have h4 : 0 < √(v i) := Real.sqrt_pos.2 hv
  have h5 : 0 < g i * g i := mul_self_pos.2 hg
  have : size H lr s avg p i * (g i / √(v i) / (match H.clip with
      | none => (1 : ℝ)
      | some c => max 1 (rmsOf s avg (fun j => g j / √(v j)) i / c))) * g i =
      size H lr s avg p i * (g i * g i) / (√(v i) * (match H.clip with
      | none => (1 : ℝ)
      | some c => max 1 (rmsOf s avg (fun j => g j / √(v j)) i / c))) := by
    field_simp
  rw [this]
  exact div_pos (mul_pos hsz h5) (mul_pos h4 h3)

theorem rms_congr {s dims : List Nat} {f g : List Nat → ℝ} {i : List Nat} (h : ∀ j, InBox s j → f j = g j) : rmsOf s dims f i = rmsOf s dims g i := by
  unfold rmsOf
  rw [mean_congr fun j hj => by rw [h j hj]]

/-- **C91**: with a clipping threshold `c`, and without momentum and weight decay, the root mean square of what a step changes of a parameter (of each member
of a batched parameter) is at most `c` times the step size, whatever gradients there have been. -/
theorem C91_bounded (D : Def) (H : HP ℝ) (step : Int) (path : List Char) (param grad : NDArray ℝ) (st init : PState ℝ) (lr : ℝ) (avg : List Nat) (d : Dims)
    (hs : ∀ l, (D.argsort l).Perm (List.range l.length)) (hd : dimsFor D path param.shape = .ok (avg, d)) (hlr : H.learningRate = some lr)
    (hg : grad.shape = param.shape) (hi : initParam realOps D H.beta1.isSome path param.shape = .ok init) (hst : ShapesOf st init)
    (V : List Nat → ℝ) (hV : Holds param.shape d st V) (hV0 : ∀ i, InBox param.shape i → 0 ≤ V i) (he : 0 < H.decayRate) (h1 : 0 < H.eps1)
    (ho : H.stepOffset ≤ step) (x : NDArray ℝ × PState ℝ) (hx : applyParam realOps D H step path param st grad = .ok x)
    (hb : H.beta1 = none) (hw : effDecay realOps H lr = none) (c : ℝ) (hc : H.clip = some c) (hc0 : 0 < c) (hlr0 : 0 ≤ lr)
    (hm : ∀ c, H.maxScale = some c → 0 ≤ c) (i : List Nat) :
    rmsOf param.shape avg (fun j => x.1.get j - param.get j) i ≤ c * size H lr param.shape avg param.get i := by
  obtain ⟨x', u, hx', _, hu, _, hn, _⟩ := C91_step D H step path param grad st init lr avg d hs hd hlr hg hi hst V hV hV0 he h1 ho
  rw [hx] at hx'
  simp only [Except.ok.injEq] at hx'
  subst hx'
  have : rmsOf param.shape avg (fun j => x.1.get j - param.get j) i =
      rmsOf param.shape avg (step1 H lr param.shape avg param.get fun j => grad.get j / √(estimate param.shape d (moment H step V grad.get) j)) i := by
    unfold rmsOf
    rw [mean_congr fun j hj => ?_]
    dsimp only
    rw [hn hb j hj, hw, hu j hj]
    simp only [Option.getD_none]
    ring
  rw [this]
  exact bounded_aux H lr c hlr0 hm hc hc0 param.shape avg _ _ i

/-- **C91**: with momentum, a bound on the accumulated step that is at least the clipping threshold times the step size is kept, and the parameter is changed
by exactly the accumulated step. -/
theorem C91_momentum (D : Def) (H : HP ℝ) (step : Int) (path : List Char) (param grad : NDArray ℝ) (st init : PState ℝ) (lr : ℝ) (avg : List Nat) (d : Dims)
    (hs : ∀ l, (D.argsort l).Perm (List.range l.length)) (hd : dimsFor D path param.shape = .ok (avg, d)) (hlr : H.learningRate = some lr)
    (hg : grad.shape = param.shape) (hi : initParam realOps D H.beta1.isSome path param.shape = .ok init) (hst : ShapesOf st init)
    (V : List Nat → ℝ) (hV : Holds param.shape d st V) (hV0 : ∀ i, InBox param.shape i → 0 ≤ V i) (he : 0 < H.decayRate) (h1 : 0 < H.eps1)
    (ho : H.stepOffset ≤ step) (x : NDArray ℝ × PState ℝ) (hx : applyParam realOps D H step path param st grad = .ok x)
    (b : ℝ) (hb : H.beta1 = some b) (hb0 : 0 ≤ b) (hb1 : b ≤ 1) (hw : effDecay realOps H lr = none) (c : ℝ) (hc : H.clip = some c) (hc0 : 0 < c) (hlr0 : 0 ≤ lr)
    (hm : ∀ c, H.maxScale = some c → 0 ≤ c) (i : List Nat) (B : ℝ) (hB : c * size H lr param.shape avg param.get i ≤ B)
    (hmB : rmsOf param.shape avg st.m.get i ≤ B) :
    rmsOf param.shape avg x.2.m.get i ≤ B ∧ rmsOf param.shape avg (fun j => x.1.get j - param.get j) i ≤ B := by
  obtain ⟨x', u, hx', _, hu, _, _, hn⟩ := C91_step D H step path param grad st init lr avg d hs hd hlr hg hi hst V hV hV0 he h1 ho
  rw [hx] at hx'
  simp only [Except.ok.injEq] at hx'
  subst hx'
  have h2 : rmsOf param.shape avg x.2.m.get i ≤ B := by
    refine momentum_aux param.shape avg b B hb0 hb1 st.m.get u x.2.m.get i (fun j hj => (hn b hb j ((mem_slice _ _ _ _).1 hj).1).1) hmB ?_
    rw [rms_congr hu]
    exact le_trans (bounded_aux H lr c hlr0 hm hc hc0 param.shape avg _ _ i) hB
  refine ⟨h2, ?_⟩
  have : rmsOf param.shape avg (fun j => x.1.get j - param.get j) i = rmsOf param.shape avg x.2.m.get i := by
    unfold rmsOf
    rw [mean_congr fun j hj => ?_]
    dsimp only
    rw [(hn b hb j hj).2, hw]
    simp only [Option.getD_none]
    ring
  rw [this]
  exact h2

/-- **C91**: without momentum and weight decay every element moves against its gradient, and stays where its gradient is zero. -/
theorem C91_sign (D : Def) (H : HP ℝ) (step : Int) (path : List Char) (param grad : NDArray ℝ) (st init : PState ℝ) (lr : ℝ) (avg : List Nat) (d : Dims)
    (hs : ∀ l, (D.argsort l).Perm (List.range l.length)) (hd : dimsFor D path param.shape = .ok (avg, d)) (hlr : H.learningRate = some lr)
    (hg : grad.shape = param.shape) (hi : initParam realOps D H.beta1.isSome path param.shape = .ok init) (hst : ShapesOf st init)
    (V : List Nat → ℝ) (hV : Holds param.shape d st V) (hV0 : ∀ i, InBox param.shape i → 0 ≤ V i) (he : 0 < H.decayRate) (h1 : 0 < H.eps1)
    (ho : H.stepOffset ≤ step) (x : NDArray ℝ × PState ℝ) (hx : applyParam realOps D H step path param st grad = .ok x)
    (hb : H.beta1 = none) (hw : effDecay realOps H lr = none) (hlr0 : 0 < lr) (h2 : 0 < H.eps2) (hm : ∀ c, H.maxScale = some c → 0 < c)
    (i : List Nat) (hbox : InBox param.shape i) :
    (0 < grad.get i → x.1.get i < param.get i) ∧ (grad.get i < 0 → param.get i < x.1.get i) ∧ (grad.get i = 0 → x.1.get i = param.get i) := by
  obtain ⟨x', u, hx', _, hu, hpos, hn, _⟩ := C91_step D H step path param grad st init lr avg d hs hd hlr hg hi hst V hV hV0 he h1 ho
  rw [hx] at hx'
  simp only [Except.ok.injEq] at hx'
  subst hx'
  have hd' := hn hb i hbox
  rw [hw] at hd'
  simp only [Option.getD_none, sub_zero, one_mul] at hd'
  have hsg : grad.get i ≠ 0 → 0 < u i * grad.get i := by
    intro hne
    rw [hu i hbox]
    exact sign_aux H lr hlr0 h2 hm param.shape avg param.get grad.get (estimate param.shape d (moment H step V grad.get)) i (hpos i hbox) hne
  refine ⟨fun h => ?_, fun h => ?_, fun h => ?_⟩
  · have := hsg h.ne'
    have : 0 < u i := (pos_iff_pos_of_mul_pos this).2 h
    linarith
  · have := hsg h.ne
    have : u i < 0 := (neg_iff_neg_of_mul_pos this).2 h
    linarith
  · have : u i = 0 := by
      rw [hu i hbox]
      unfold step1
      simp [h]
    rw [hd', this, sub_zero]

/-- **C91**: the hypotheses on `V` hold in every state that is reached from the initial one, at steps from `step_offset` on. -/
theorem C91_reachable (D : Def) (path : List Char) (momentum : Bool) (init : PState ℝ) (s avg : List Nat) (d : Dims)
    (hs : ∀ l, (D.argsort l).Perm (List.range l.length)) (hd : dimsFor D path s = .ok (avg, d)) (hi : initParam realOps D momentum path s = .ok init)
    (l : List (HP ℝ × NDArray ℝ)) (step : Int)
    (hl : ∀ x ∈ l, x.1.learningRate.isSome = true ∧ x.1.beta1.isSome = momentum ∧ x.2.shape = s ∧ 0 < x.1.decayRate ∧ 0 < x.1.eps1 ∧ x.1.stepOffset ≤ step)
    (p : NDArray ℝ) (hp : p.shape = s) :
    ∃ x, run realOps D path step l (p, init) = .ok x ∧ x.1.shape = s ∧ ShapesOf x.2 init ∧ Holds s d x.2 (secondMoment step l fun _ => 0) ∧
      ∀ i, 0 ≤ secondMoment step l (fun _ => 0) i := by
  obtain ⟨p', st', hr, h1, h2⟩ := C48_run realOps D path momentum init s hs hi l step p init hp ⟨rfl, rfl, rfl, rfl⟩
    fun x hx => ⟨(hl x hx).1, (hl x hx).2.1, (hl x hx).2.2.1⟩
  refine ⟨(p', st'), hr, h1, h2, C91_accumulators D path momentum init s avg d hs hd hi l (fun x hx => ⟨(hl x hx).2.1, (hl x hx).2.2.1⟩) step p hp _ hr, ?_⟩
  have main : ∀ (l : List (HP ℝ × NDArray ℝ)) (step : Int) (V : List Nat → ℝ), (∀ x ∈ l, 0 < x.1.decayRate ∧ 0 < x.1.eps1 ∧ x.1.stepOffset ≤ step) →
      (∀ i, 0 ≤ V i) → ∀ i, 0 ≤ secondMoment step l V i := by
    intro l
    induction l with
    | nil => intro step V _ hV i; exact hV i
    | cons a l ih =>
      obtain ⟨H, g⟩ := a
      intro step V hl hV i
      obtain ⟨k1, k2, k3⟩ := hl (H, g) (by simp)
      refine ih (step + 1) _ (fun x hx => ?_) (fun j => (moment_pos H k1 k2 step k3 V g.get j (hV j)).le) i
      obtain ⟨m1, m2, m3⟩ := hl x (by simp [hx])
      exact ⟨m1, m2, by omega⟩
  exact main l step _ (fun x hx => ⟨(hl x hx).2.2.2.1, (hl x hx).2.2.2.2.1, (hl x hx).2.2.2.2.2⟩) fun _ => le_rfl

/-- **C91**: at the step `step_offset` the second moments of before have no influence. -/
theorem C91_reset (D : Def) (H : HP ℝ) (path : List Char) (param grad : NDArray ℝ) (st su init : PState ℝ) (lr : ℝ) (avg : List Nat) (d : Dims)
    (hs : ∀ l, (D.argsort l).Perm (List.range l.length)) (hd : dimsFor D path param.shape = .ok (avg, d)) (hlr : H.learningRate = some lr)
    (hg : grad.shape = param.shape) (hi : initParam realOps D H.beta1.isSome path param.shape = .ok init) (hst : ShapesOf st init) (hsu : ShapesOf su init)
    (hm : ∀ i, st.m.get i = su.m.get i) (he : 0 < H.decayRate) :
    ∃ x y, applyParam realOps D H H.stepOffset path param st grad = .ok x ∧ applyParam realOps D H H.stepOffset path param su grad = .ok y ∧
      ∀ i, InBox param.shape i → x.1.get i = y.1.get i ∧
        (∀ d1 d0, d = .dims d1 d0 → x.2.vRow.get (del d0 i) = y.2.vRow.get (del d0 i) ∧ x.2.vCol.get (del d1 i) = y.2.vCol.get (del d1 i)) ∧
        ((∀ d1 d0, d ≠ .dims d1 d0) → x.2.v.get i = y.2.v.get i) := by
  obtain ⟨avg1, d1', np, st', hd1, hx, _, _, hF, hU⟩ := C48_update realOps D H H.stepOffset path param grad st init lr hs hlr hg hi hst
  obtain ⟨avg2, d2', nq, su', hd2, hy, _, _, hF2, hU2⟩ := C48_update realOps D H H.stepOffset path param grad su init lr hs hlr hg hi hsu
  rw [hd] at hd1 hd2
  simp only [Except.ok.injEq, Prod.mk.injEq] at hd1 hd2
  obtain ⟨rfl, rfl⟩ := hd1
  obtain ⟨rfl, rfl⟩ := hd2
  have h0 : realOps.decayPow (H.stepOffset - H.stepOffset) H.decayRate = 0 := by
    rw [decay_real]
    exact (C91_decay H he H.stepOffset le_rfl).2.2.1 rfl
  have hmm : st.m.get = su.m.get := funext hm
  have hrow : ∀ (ds : List Nat) (v w : List Nat → ℝ), rowEst realOps H 0 param.shape ds v grad.get = rowEst realOps H 0 param.shape ds w grad.get := by
    intro ds v w
    funext i
    rw [rowEst_real, rowEst_real]
    ring
  have hyf : ∀ (d1 d0 : List Nat), yFactored realOps H 0 param.shape d1 d0 st.vRow.get st.vCol.get grad.get =
      yFactored realOps H 0 param.shape d1 d0 su.vRow.get su.vCol.get grad.get := by
    intro d1 d0
    funext i
    unfold yFactored
    rw [hrow d0 st.vRow.get su.vRow.get, hrow d1 st.vCol.get su.vCol.get]
  have hyp : yPlain realOps H 0 st.v.get grad.get = yPlain realOps H 0 su.v.get grad.get := by
    funext i
    unfold yPlain
    rw [ema_real, ema_real]
    ring_nf
  refine ⟨_, _, hx, hy, fun i hb => ?_⟩
  by_cases hdd : ∃ d1 d0, d = .dims d1 d0
  · obtain ⟨e1, e0, he'⟩ := hdd
    obtain ⟨a1, a2, a3, _⟩ := hF e1 e0 he' i hb
    obtain ⟨b1, b2, b3, _⟩ := hF2 e1 e0 he' i hb
    simp only [h0, keep_real] at a1 a2 a3 b1 b2 b3
    refine ⟨by rw [a1, b1, hyf, hmm], ?_, fun h => absurd he' (h e1 e0)⟩
    intro d1 d0 h
    rw [he'] at h
    cases h
    rw [a2, a3, b2, b3, hrow e0 st.vRow.get su.vRow.get, hrow e1 st.vCol.get su.vCol.get]
    exact ⟨rfl, rfl⟩
  · have hne : ∀ d1 d0, d ≠ .dims d1 d0 := fun d1 d0 h => hdd ⟨d1, d0, h⟩
    obtain ⟨a1, a2, _⟩ := hU hne i hb
    obtain ⟨b1, b2, _⟩ := hU2 hne i hb
    simp only [h0, keep_real] at a1 a2 b1 b2
    refine ⟨by rw [a1, b1, hyp, hmm], fun d1 d0 h => absurd h (hne d1 d0), fun _ => ?_⟩
    rw [a2, b2, ema_real, ema_real]
    ring

/-- **C91, finding**: with `weight_decay_rate_lr_exponent`, a `weight_decay_rate` of zero does not switch weight decay off: it counts as one. -/
theorem C91_zero_decay (H : HP ℝ) (lr e : ℝ) (he : e ≠ 0) (hx : H.wdExponent = some e) (hw : H.weightDecay = some 0) :
    effDecay realOps H lr = some (lr ^ e) := by
  unfold effDecay
  rw [hx, hw]
  simp [realOps, he]

/-! ### Matrices -/

theorem sum_filter_map {α : Type} (p : α → Bool) (f : α → ℝ) (l : List α) : ((l.filter p).map f).sum = (l.map fun a => if p a then f a else 0).sum := by
  induction l with
  | nil => rfl
  | cons a l ih =>
    cases h : p a with
    | true => rw [List.filter_cons_of_pos h]; simp [h, ih]
    | false => rw [List.filter_cons_of_neg (by simp [h])]; simp [h, ih]

theorem sum_flatMap_map {α β : Type} (g : α → List β) (f : β → ℝ) (l : List α) : ((l.flatMap g).map f).sum = (l.map fun a => ((g a).map f).sum).sum := by
  induction l with
  | nil => rfl
  | cons a l ih => simp [List.flatMap_cons, ih]

theorem box_sum (n m : Nat) (f : List Nat → ℝ) : ((box [n, m]).map f).sum = ∑ x ∈ Finset.range n, ∑ y ∈ Finset.range m, f [x, y] := by
  have h1 : ∀ (n : Nat) (f : Nat → ℝ), ∑ x ∈ Finset.range n, f x = ((List.range n).map f).sum := fun _ _ => rfl
  have h2 : box [m] = (List.range m).map fun y => [y] := by
    simp only [box, List.map_cons, List.map_nil]
    exact List.flatMap_pure_eq_map _ _
  simp only [h1]
  rw [box, sum_flatMap_map, h2]
  simp only [List.map_map, Function.comp_def]

theorem slice_sum (n m : Nat) (x y : Nat) (hx : x < n) (hy : y < m) (f : List Nat → ℝ) :
    ((slice [n, m] [1] [x, y]).map f).sum = ∑ y' ∈ Finset.range m, f [x, y'] ∧
    ((slice [n, m] [0] [x, y]).map f).sum = ∑ x' ∈ Finset.range n, f [x', y] := by
  unfold slice
  rw [sum_filter_map, sum_filter_map, box_sum, box_sum]
  constructor
  · rw [Finset.sum_eq_single x]
    · refine Finset.sum_congr rfl fun y' _ => if_pos ?_
      simp [List.range_succ]
    · intro x' _ hne
      refine Finset.sum_eq_zero fun y' _ => if_neg ?_
      simp [List.range_succ, hne]
    · intro h
      exact absurd (Finset.mem_range.2 hx) h
  · refine Finset.sum_congr rfl fun x' _ => ?_
    rw [Finset.sum_eq_single y]
    · refine if_pos ?_
      simp [List.range_succ]
    · intro y' _ hne
      refine if_neg ?_
      simp [List.range_succ, hne]
    · intro h
      exact absurd (Finset.mem_range.2 hy) h

theorem mean_two (n m : Nat) (x y : Nat) (hx : x < n) (hy : y < m) (f : List Nat → ℝ) :
    mean [n, m] [1] f [x, y] = (∑ y' ∈ Finset.range m, f [x, y']) / m ∧ mean [n, m] [0] f [x, y] = (∑ x' ∈ Finset.range n, f [x', y]) / n := by
  have hlen : ∀ l : List (List Nat), (l.length : ℝ) = (l.map fun _ => (1 : ℝ)).sum := by intro l; simp
  unfold mean
  rw [hlen, hlen, (slice_sum n m x y hx hy f).1, (slice_sum n m x y hx hy f).2, (slice_sum n m x y hx hy _).1, (slice_sum n m x y hx hy _).2]
  simp

/-- **C91**: for a matrix the estimate has the same means over every row and every column as the second moments themselves, and if these have rank one
it is exact. -/
theorem C91_matrix (n m : Nat) (d1 d0 : List Nat) (hd : (d1 = [0] ∧ d0 = [1]) ∨ (d1 = [1] ∧ d0 = [0])) (V : List Nat → ℝ)
    (hV : ∀ i, InBox [n, m] i → 0 < V i) (i : List Nat) (hi : InBox [n, m] i) :
    mean [n, m] d0 (estimate [n, m] (.dims d1 d0) V) i = mean [n, m] d0 V i ∧
    mean [n, m] d1 (estimate [n, m] (.dims d1 d0) V) i = mean [n, m] d1 V i ∧
    ∀ a b : Nat → ℝ, (∀ x y, x < n → y < m → V [x, y] = a x * b y) → estimate [n, m] (.dims d1 d0) V i = V i := by
  obtain ⟨x, y, rfl⟩ : ∃ x y, i = [x, y] := by
    cases hi with
    | cons _ h => cases h with
      | cons _ h => cases h; exact ⟨_, _, rfl⟩
  have hxy : x < n ∧ y < m := by
    cases hi with
    | cons h1 h => cases h with
      | cons h2 _ => exact ⟨h1, h2⟩
  obtain ⟨hx, hy⟩ := hxy
  have hbox : ∀ x y, x < n → y < m → InBox [n, m] [x, y] := fun x y h1 h2 => List.Forall₂.cons h1 (List.Forall₂.cons h2 List.Forall₂.nil)
  have hn : (0 : ℝ) < n := by exact_mod_cast (by omega : 0 < n)
  have hm : (0 : ℝ) < m := by exact_mod_cast (by omega : 0 < m)
  -- the sum of all second moments
  set T := ∑ x' ∈ Finset.range n, ∑ y' ∈ Finset.range m, V [x', y'] with hT
  have hTpos : 0 < T := Finset.sum_pos (fun x' h1 => Finset.sum_pos (fun y' h2 => hV _ (hbox _ _ (Finset.mem_range.1 h1) (Finset.mem_range.1 h2)))
    ⟨y, Finset.mem_range.2 hy⟩) ⟨x, Finset.mem_range.2 hx⟩
  have hT' : T = ∑ y' ∈ Finset.range m, ∑ x' ∈ Finset.range n, V [x', y'] := Finset.sum_comm
  -- the estimate
  have hest : ∀ x y, x < n → y < m → estimate [n, m] (.dims d1 d0) V [x, y] =
      (∑ y' ∈ Finset.range m, V [x, y']) * (∑ x' ∈ Finset.range n, V [x', y]) / T := by
    intro x y h1 h2
    have hg : ∀ x y, x < n → y < m → mean [n, m] [0] (mean [n, m] [1] V) [x, y] = T / (n * m) ∧ mean [n, m] [1] (mean [n, m] [0] V) [x, y] = T / (n * m) := by
      intro x y h1 h2
      rw [(mean_two n m x y h1 h2 _).1, (mean_two n m x y h1 h2 _).2]
      rw [Finset.sum_congr rfl fun x' hx' => (mean_two n m x' y (Finset.mem_range.1 hx') h2 V).1,
        Finset.sum_congr rfl fun y' hy' => (mean_two n m x y' h1 (Finset.mem_range.1 hy') V).2, ← Finset.sum_div, ← Finset.sum_div, ← hT, ← hT']
      constructor <;> field_simp
    unfold estimate
    rcases hd with ⟨rfl, rfl⟩ | ⟨rfl, rfl⟩
    · simp only [(hg x y h1 h2).1, (mean_two n m x y h1 h2 V).1, (mean_two n m x y h1 h2 V).2]
      field_simp
    · simp only [(hg x y h1 h2).2, (mean_two n m x y h1 h2 V).1, (mean_two n m x y h1 h2 V).2]
      field_simp
  have hrow : mean [n, m] [1] (estimate [n, m] (.dims d1 d0) V) [x, y] = mean [n, m] [1] V [x, y] := by
    rw [(mean_two n m x y hx hy _).1, (mean_two n m x y hx hy _).1, Finset.sum_congr rfl fun y' hy' => hest x y' hx (Finset.mem_range.1 hy'),
      ← Finset.sum_div, ← Finset.mul_sum, ← hT']
    field_simp
  have hcol : mean [n, m] [0] (estimate [n, m] (.dims d1 d0) V) [x, y] = mean [n, m] [0] V [x, y] := by
    rw [(mean_two n m x y hx hy _).2, (mean_two n m x y hx hy _).2, Finset.sum_congr rfl fun x' hx' => hest x' y (Finset.mem_range.1 hx') hy,
      ← Finset.sum_div, ← Finset.sum_mul, ← hT]
    field_simp
  refine ⟨?_, ?_, ?_⟩
  · rcases hd with ⟨rfl, rfl⟩ | ⟨rfl, rfl⟩
    · exact hrow
    · exact hcol
  · rcases hd with ⟨rfl, rfl⟩ | ⟨rfl, rfl⟩
    · exact hcol
    · exact hrow
  · intro a b hab
    rw [hest x y hx hy, hab x y hx hy]
    have e1 : ∑ y' ∈ Finset.range m, V [x, y'] = a x * ∑ y' ∈ Finset.range m, b y' := by
      rw [Finset.mul_sum]; exact Finset.sum_congr rfl fun y' hy' => hab x y' hx (Finset.mem_range.1 hy')
    have e2 : ∑ x' ∈ Finset.range n, V [x', y] = (∑ x' ∈ Finset.range n, a x') * b y := by
      rw [Finset.sum_mul]; exact Finset.sum_congr rfl fun x' hx' => hab x' y (Finset.mem_range.1 hx') hy
    have e3 : T = (∑ x' ∈ Finset.range n, a x') * ∑ y' ∈ Finset.range m, b y' := by
      rw [Finset.sum_mul_sum]
      exact Finset.sum_congr rfl fun x' hx' => Finset.sum_congr rfl fun y' hy' => hab x' y' (Finset.mem_range.1 hx') (Finset.mem_range.1 hy')
    rw [e1, e2, div_eq_iff hTpos.ne', e3]
    ring

/-! ### Witnesses -/

/-- The hyper parameters of `Adafactor()` with a learning rate. -/
noncomputable def H0 : HP ℝ := ⟨some (1 / 100), none, 4 / 5, 0, true, none, some 1, none, none, 1e-30, 1e-3, false⟩

/-- A matrix of 2 rows and 3 columns that is factored. -/
def D0 : Def := ⟨true, none, 2, fun l => List.range l.length⟩

/-- Two steps are taken, and the next one fulfils the hypotheses of `C91_step`. -/
example (p g g' : NDArray ℝ) (hp : p.shape = [2, 3]) (hg : g.shape = [2, 3]) (hg' : g'.shape = [2, 3]) :
    ∃ init x, initParam realOps D0 false [] [2, 3] = .ok init ∧ run realOps D0 [] 0 [(H0, g), (H0, g')] (p, init) = .ok x ∧ x.1.shape = [2, 3] ∧
      Holds [2, 3] (.dims [0] [1]) x.2 (secondMoment 0 [(H0, g), (H0, g')] fun _ => 0) := by
  have hd : dimsFor D0 [] [2, 3] = .ok ([0, 1], .dims [0] [1]) := by decide
  have hi : ∃ init, initParam realOps D0 false [] [2, 3] = .ok init := by unfold initParam; rw [hd]; exact ⟨_, rfl⟩
  obtain ⟨init, hi⟩ := hi
  obtain ⟨x, h1, h2, _, h3, _⟩ := C91_reachable D0 [] false init [2, 3] _ _ (fun l => List.Perm.refl _) hd hi [(H0, g), (H0, g')] 0
    (by
      intro x hx
      have : x.1 = H0 ∧ x.2.shape = [2, 3] := by
        simp only [List.mem_cons, List.not_mem_nil, or_false] at hx
        rcases hx with rfl | rfl
        · exact ⟨rfl, hg⟩
        · exact ⟨rfl, hg'⟩
      rw [this.1]
      refine ⟨rfl, rfl, this.2, ?_, ?_, ?_⟩
      · norm_num [H0]
      · norm_num [H0]
      · norm_num [H0]) p hp
  exact ⟨init, x, hi, h1, h2, h3⟩

/-- No weight decay by default, so `C91_bounded` and `C91_sign` apply. -/
example : effDecay realOps H0 (1 / 100) = none := rfl

end Verif.AdafactorNum
