import Verif.Common
import Verif.Spec.Schedule
import Mathlib.Algebra.Order.Floor.Semifield
/-
Properties C44 (learning-rate schedule) and C45 (vocabulary rounding).
-/
namespace Verif.Schedule
open Spec

/-! ### Parsing the factor string -/

theorem dropWhile_pre (w s : Name) (h : ∀ x ∈ w, x.isWhitespace = true) :
    (w ++ s).dropWhile Char.isWhitespace = s.dropWhile Char.isWhitespace := by
  induction w with
  | nil => rfl
  | cons a w ih =>
    rw [List.cons_append, List.dropWhile_cons_of_pos (h a (by simp))]
    exact ih (fun x hx => h x (List.mem_cons_of_mem _ hx))

theorem dropWhile_self (s : Name) (h : ∀ x, s.head? = some x → x.isWhitespace = false) :
    s.dropWhile Char.isWhitespace = s := by
  cases s with
  | nil => rfl
  | cons a s => rw [List.dropWhile_cons_of_neg (by rw [h a rfl]; simp)]

/-- A name as it may appear in the factor string. -/
structure Clean (n : Name) : Prop where
  ne : n ≠ []
  star : '*' ∉ n
  first : ∀ x, n.head? = some x → x.isWhitespace = false
  last : ∀ x, n.getLast? = some x → x.isWhitespace = false

theorem strip_pad (w1 w2 n : Name) (h1 : ∀ x ∈ w1, x.isWhitespace = true)
    (h2 : ∀ x ∈ w2, x.isWhitespace = true) (hn : Clean n) : strip (w1 ++ n ++ w2) = n := by
  unfold strip
  rw [List.append_assoc, dropWhile_pre _ _ h1]
  rw [dropWhile_self (n ++ w2)]
  · rw [List.reverse_append, dropWhile_pre _ _ (by simpa using h2), dropWhile_self, List.reverse_reverse]
    intro x hx
    exact hn.last x (by simpa using hx)
  · intro x hx
    apply hn.first
    cases n with
    | nil => exact absurd rfl hn.ne
    | cons a n => simpa using hx

theorem star_not_white : ('*' : Char).isWhitespace = false := by decide

theorem splitStar_ne (s : Name) : splitStar s ≠ [] := by
  cases s with
  | nil => simp [splitStar]
  | cons c s =>
    unfold splitStar
    split_ifs
    · simp
    · split <;> simp

theorem splitStar_none (s : Name) (h : '*' ∉ s) : splitStar s = [s] := by
  induction s with
  | nil => rfl
  | cons c s ih =>
    simp only [List.mem_cons, not_or] at h
    unfold splitStar
    rw [if_neg (fun e => h.1 e.symm), ih h.2]

theorem splitStar_cons (s t : Name) (h : '*' ∉ s) : splitStar (s ++ '*' :: t) = s :: splitStar t := by
  induction s with
  | nil => simp [splitStar]
  | cons c s ih =>
    simp only [List.mem_cons, not_or] at h
    rw [List.cons_append]
    conv_lhs => unfold splitStar
    rw [if_neg (fun e => h.1 e.symm), ih h.2]

theorem parse_lists (s : Name) (ns : List Name) (h : Lists s ns) (hn : ∀ n ∈ ns, Clean n) :
    parse s = ns := by
  induction h with
  | one w1 w2 n h1 h2 =>
    have hc := hn n (by simp)
    unfold parse
    rw [splitStar_none, List.map_singleton, strip_pad _ _ _ h1 h2 hc]
    simp only [List.mem_append, not_or]
    refine ⟨⟨fun h => ?_, hc.star⟩, fun h => ?_⟩
    · simpa [star_not_white] using h1 _ h
    · simpa [star_not_white] using h2 _ h
  | more w1 w2 n s ns h1 h2 _ ih =>
    have hc := hn n (by simp)
    unfold parse at ih ⊢
    rw [splitStar_cons, List.map_cons, strip_pad _ _ _ h1 h2 hc,
      ih (fun m hm => hn m (List.mem_cons_of_mem _ hm))]
    simp only [List.mem_append, not_or]
    refine ⟨⟨fun h => ?_, hc.star⟩, fun h => ?_⟩
    · simpa [star_not_white] using h1 _ h
    · simpa [star_not_white] using h2 _ h

theorem factor_clean (f : Factor) : Clean f.name := by
  cases f <;> exact ⟨by decide, by decide, by decide, by decide⟩

/-! ### The loop -/

theorem elapsed_max (c : Cfg) (step : ℤ) : max 0 (step - c.offset) = (elapsed c step : ℤ) := by
  unfold elapsed; omega

theorem mul_factor (c : Cfg) (hw : 0 < c.warmup) (hd : 0 ≤ c.decay) (hp : 0 < c.perDecay)
    (hc : 0 < c.perCycle) (n : ℕ) (ret : ℝ) (f : Factor) :
    mul c n ret f.name = .ok (ret * f.value c n) := by
  have hw' : (0 : ℝ) < c.warmup := by exact_mod_cast hw
  cases f with
  | constant => rfl
  | linearWarmup =>
    unfold mul
    rw [if_neg (by decide), if_pos (by decide)]
    simp only [Factor.value, Int.cast_natCast]
    congr 2
    split_ifs with h
    · rw [min_eq_right]
      rw [div_le_one hw']
      exact_mod_cast h.le
    · rw [min_eq_left]
      rw [le_div_iff₀ hw', one_mul]
      exact_mod_cast not_lt.1 h
  | linearDecay =>
    unfold mul
    rw [if_neg (by decide), if_neg (by decide), if_pos (by decide)]
    simp only [Factor.value, Int.cast_natCast]
    congr 2
    split_ifs with h
    · have h' : (n : ℝ) ≤ c.warmup := by exact_mod_cast h
      rw [min_eq_left]
      refine (div_le_one_of_le₀ h' hw'.le).trans ?_
      nlinarith
    · have h' : (c.warmup : ℝ) ≤ n := by exact_mod_cast (not_le.1 h).le
      rw [min_eq_right]
      · ring
      · have : (1 : ℝ) ≤ n / c.warmup := by rwa [le_div_iff₀ hw', one_mul]
        nlinarith
  | rsqrtDecay =>
    unfold mul
    rw [if_neg (by decide), if_neg (by decide), if_neg (by decide), if_pos (by decide)]
    simp only [Factor.value, Int.cast_natCast]
    congr 1
    rw [div_eq_mul_one_div]
    split_ifs with h
    · rw [max_eq_right (by exact_mod_cast h)]
    · rw [max_eq_left (by exact_mod_cast (not_le.1 h).le)]
  | rsqrtNormalizedDecay =>
    unfold mul
    rw [if_neg (by decide), if_neg (by decide), if_neg (by decide), if_neg (by decide), if_pos (by decide)]
    simp only [Factor.value, Int.cast_natCast]
    congr 1
    rw [mul_div_assoc]
    split_ifs with h
    · rw [max_eq_right (by exact_mod_cast h), div_self (Real.sqrt_pos.2 hw').ne']
    · rw [max_eq_left (by exact_mod_cast (not_le.1 h).le), Real.sqrt_div hw'.le]
  | decayEvery =>
    unfold mul
    rw [if_neg (by decide), if_neg (by decide), if_neg (by decide), if_neg (by decide),
      if_neg (by decide), if_pos (by decide)]
    simp only [Factor.value]
    congr 2
  | cosineDecay =>
    unfold mul
    rw [if_neg (by decide), if_neg (by decide), if_neg (by decide), if_neg (by decide),
      if_neg (by decide), if_neg (by decide), if_pos (by decide)]
    simp only [Factor.value, Int.cast_natCast]
    congr 2
    have hc' : (0 : ℝ) < c.perCycle := by exact_mod_cast hc
    split_ifs with h
    · have h' : (n : ℝ) ≤ c.warmup := by exact_mod_cast h
      rw [max_eq_left (div_nonpos_of_nonpos_of_nonneg (by linarith) hc'.le)]
      norm_num
    · have h' : (c.warmup : ℝ) ≤ n := by exact_mod_cast (not_le.1 h).le
      rw [max_eq_right (div_nonneg (by linarith) hc'.le)]
      have h2 : ((n : ℝ) - c.warmup) = ((n - c.warmup : ℕ) : ℝ) := by
        rw [Nat.cast_sub (not_le.1 h).le]
      rw [h2, Int.fract_div_natCast_eq_div_natCast_mod]
      rw [max_eq_right]
      · ring
      · have := Real.neg_one_le_cos (Real.pi * (((n - c.warmup) % c.perCycle : ℕ) / (c.perCycle : ℝ)))
        linarith

theorem mulAll_factors (c : Cfg) (hw : 0 < c.warmup) (hd : 0 ≤ c.decay) (hp : 0 < c.perDecay)
    (hc : 0 < c.perCycle) (n : ℕ) (fs : List Factor) : ∀ (ret : ℝ),
    mulAll c n (fs.map Factor.name) ret = .ok (ret * (fs.map (Factor.value c n)).prod) := by
  induction fs with
  | nil => intro ret; simp [mulAll]
  | cons f fs ih =>
    intro ret
    simp only [List.map_cons, mulAll, mul_factor c hw hd hp hc, ih, List.prod_cons, mul_assoc]

/-- **C44.** Listing any of the documented factors, in any order, with repetitions and any white
space, gives the product of their documented values, raised to at least
`min_learning_rate`. -/
theorem C44_product (c : Cfg) (hw : 0 < c.warmup) (hd : 0 ≤ c.decay) (hp : 0 < c.perDecay)
    (hc : 0 < c.perCycle) (s : Name) (fs : List Factor) (hs : Lists s (fs.map Factor.name)) (step : ℤ) :
    stepFn s c step = .ok (max ((fs.map (Factor.value c (elapsed c step))).prod) c.minLr) := by
  unfold stepFn
  rw [parse_lists s _ hs (by
    intro n hn
    obtain ⟨f, -, rfl⟩ := List.mem_map.1 hn
    exact factor_clean f), elapsed_max, mulAll_factors c hw hd hp hc, one_mul]

/-- **C44.** Whatever the configuration (even a misconfigured one) the learning rate never falls
below `min_learning_rate`. -/
theorem C44_floor (s : Name) (c : Cfg) (step : ℤ) (v : ℝ) (h : stepFn s c step = .ok v) :
    c.minLr ≤ v := by
  unfold stepFn at h
  split at h
  · cases h
  · cases h; exact le_max_right _ _

theorem mul_unknown (c : Cfg) (step : ℤ) (ret : ℝ) (n : Name) (h : ∀ f : Factor, n ≠ f.name) :
    mul c step ret n = .error (.unknownFactor n) := by
  unfold mul
  dsimp only
  split_ifs with h1 h2 h3 h4 h5 h6 h7
  · exact absurd h1 (h .constant)
  · exact absurd h2 (h .linearWarmup)
  · exact absurd h3 (h .linearDecay)
  · exact absurd h4 (h .rsqrtDecay)
  · exact absurd h5 (h .rsqrtNormalizedDecay)
  · exact absurd h6 (h .decayEvery)
  · exact absurd h7 (h .cosineDecay)
  · rfl

theorem mul_known (c : Cfg) (step : ℤ) (ret : ℝ) (f : Factor) : ∃ v, mul c step ret f.name = .ok v := by
  by_cases hk : ∃ v, mul c step ret f.name = .ok v
  · exact hk
  · exfalso
    revert hk
    unfold mul
    dsimp only
    split_ifs with h1 h2 h3 h4 h5 h6 h7
    iterate 7 exact fun hk => hk ⟨_, rfl⟩
    intro _
    clear c step ret
    revert f
    exact fun f => by
      cases f
      · exact fun h1 _ _ _ _ _ _ => h1 rfl
      · exact fun _ h _ _ _ _ _ => h rfl
      · exact fun _ _ h _ _ _ _ => h rfl
      · exact fun _ _ _ h _ _ _ => h rfl
      · exact fun _ _ _ _ h _ _ => h rfl
      · exact fun _ _ _ _ _ h _ => h rfl
      · exact fun _ _ _ _ _ _ h => h rfl

theorem mulAll_error (c : Cfg) (step : ℤ) (ns : List Name) : ∀ (ret : ℝ),
    (∃ v, mulAll c step ns ret = .ok v) ∧ (∀ n ∈ ns, ∃ f : Factor, n = f.name) ∨
    ∃ pre n post, ns = pre ++ n :: post ∧ (∀ m ∈ pre, ∃ f : Factor, m = f.name) ∧
      (∀ f : Factor, n ≠ f.name) ∧ mulAll c step ns ret = .error (.unknownFactor n) := by
  induction ns with
  | nil => intro ret; left; exact ⟨⟨ret, rfl⟩, by simp⟩
  | cons n ns ih =>
    intro ret
    by_cases h : ∃ f : Factor, n = f.name
    · obtain ⟨f, rfl⟩ := h
      obtain ⟨v, hv⟩ := mul_known c step ret f
      rcases ih v with ⟨⟨v', h1⟩, h2⟩ | ⟨pre, m, post, h1, h2, h3, h4⟩
      · left
        refine ⟨⟨v', ?_⟩, ?_⟩
        · simp only [mulAll, hv, h1]
        · intro x hx
          rcases List.mem_cons.1 hx with rfl | hx
          · exact ⟨f, rfl⟩
          · exact h2 x hx
      · right
        refine ⟨f.name :: pre, m, post, by simp [h1], ?_, h3, by simp only [mulAll, hv, h4]⟩
        intro x hx
        rcases List.mem_cons.1 hx with rfl | hx
        · exact ⟨f, rfl⟩
        · exact h2 x hx
    · push Not at h
      right
      exact ⟨[], n, ns, rfl, by simp, h, by simp only [mulAll, mul_unknown c step ret n h]⟩

/-- **C44.** A factor string with an undocumented factor raises, naming the first such factor; a string of
documented ones never does.  (The check happens when the schedule is evaluated, not when it is created.) -/
theorem C44_unknown (c : Cfg) (s : Name) (ns : List Name) (hs : Lists s ns) (hn : ∀ n ∈ ns, Clean n)
    (step : ℤ) :
    ((∃ v, stepFn s c step = .ok v) ↔ ∀ n ∈ ns, ∃ f : Factor, n = f.name) ∧
    (∀ n, stepFn s c step = .error (.unknownFactor n) ↔
      ∃ pre post, ns = pre ++ n :: post ∧ (∀ m ∈ pre, ∃ f : Factor, m = f.name) ∧
        ∀ f : Factor, n ≠ f.name) := by
  unfold stepFn
  rw [parse_lists s ns hs hn]
  have uniq : ∀ (pre pre' post post' : List Name) (n n' : Name), pre ++ n :: post = pre' ++ n' :: post' →
      (∀ m ∈ pre, ∃ f : Factor, m = f.name) → (∀ m ∈ pre', ∃ f : Factor, m = f.name) →
      (∀ f : Factor, n ≠ f.name) → (∀ f : Factor, n' ≠ f.name) → n = n' := by
    intro pre
    induction pre with
    | nil =>
      intro pre' post post' n n' h h1 h2 h3 h4
      rcases pre' with _ | ⟨a, pre'⟩
      · simp at h; exact h.1
      · simp at h
        obtain ⟨f, hf⟩ := h2 a (by simp)
        exact absurd (h.1.trans hf) (h3 f)
    | cons b pre ih =>
      intro pre' post post' n n' h h1 h2 h3 h4
      rcases pre' with _ | ⟨a, pre'⟩
      · simp at h
        obtain ⟨f, hf⟩ := h1 b (by simp)
        exact absurd (h.1.symm.trans hf) (h4 f)
      · simp only [List.cons_append, List.cons.injEq] at h
        exact ih pre' post post' n n' h.2 (fun m hm => h1 m (List.mem_cons_of_mem _ hm))
          (fun m hm => h2 m (List.mem_cons_of_mem _ hm)) h3 h4
  rcases mulAll_error c (max 0 (step - c.offset)) ns 1 with ⟨⟨v, h1⟩, h2⟩ | ⟨pre, m, post, h1, h2, h3, h4⟩
  · rw [h1]
    refine ⟨⟨fun _ => h2, fun _ => ⟨_, rfl⟩⟩, ?_⟩
    intro n
    constructor
    · intro h; cases h
    · rintro ⟨pre, post, rfl, -, h⟩
      obtain ⟨f, hf⟩ := h2 n (by simp)
      exact absurd hf (h f)
  · rw [h4]
    constructor
    · constructor
      · rintro ⟨v, h⟩; cases h
      · intro h
        obtain ⟨f, hf⟩ := h m (by rw [h1]; simp)
        exact absurd hf (h3 f)
    · intro n
      constructor
      · intro h; cases h; exact ⟨pre, post, h1, h2, h3⟩
      · rintro ⟨pre', post', h5, h6, h7⟩
        rw [uniq pre pre' post post' m n (h1 ▸ h5) h2 h6 h3 h7]

/-- The default factor string. -/
def defaultFactors : Name := "constant * linear_warmup * rsqrt_decay".toList

theorem defaultFactors_lists :
    Lists defaultFactors ([Factor.constant, .linearWarmup, .rsqrtDecay].map Factor.name) := by
  have h3 : Lists " rsqrt_decay".toList [Factor.rsqrtDecay.name] := by
    exact Lists.one [' '] [] Factor.rsqrtDecay.name (by decide) (by decide)
  have h2 := Lists.more [' '] [' '] Factor.linearWarmup.name _ _ (by decide) (by decide) h3
  have h1 := Lists.more [] [' '] Factor.constant.name _ _ (by decide) (by decide) h2
  exact h1

/-- **C44.** The default schedule: linear from 0 to `base / √warmup` during the warm-up, `base / √n`
from then on (both formulas agree at the end of the warm-up). -/
theorem C44_default (c : Cfg) (hw : 0 < c.warmup) (hd : 0 ≤ c.decay) (hp : 0 < c.perDecay)
    (hc : 0 < c.perCycle) (step : ℤ) :
    (elapsed c step ≤ c.warmup → stepFn defaultFactors c step =
      .ok (max (c.base / √c.warmup * (elapsed c step / c.warmup)) c.minLr)) ∧
    (c.warmup ≤ elapsed c step → stepFn defaultFactors c step =
      .ok (max (c.base / √(elapsed c step)) c.minLr)) := by
  have hw' : (0 : ℝ) < c.warmup := by exact_mod_cast hw
  rw [C44_product c hw hd hp hc _ _ defaultFactors_lists]
  simp only [List.map_cons, List.map_nil, List.prod_cons, List.prod_nil, Factor.value, mul_one]
  constructor
  · intro h
    rw [if_pos h]
    congr 2
    split_ifs with h1
    · ring
    · have : elapsed c step = c.warmup := by omega
      rw [this, div_self hw'.ne']
      ring
  · intro h
    rw [if_neg (by omega), one_mul]
    congr 2
    split_ifs with h1
    · have : elapsed c step = c.warmup := by omega
      rw [this]; ring
    · ring

/-- **C44.** With a non-negative base rate the default schedule never decreases before the end of the
warm-up and never increases after it. -/
theorem C44_default_shape (c : Cfg) (hw : 0 < c.warmup) (hd : 0 ≤ c.decay) (hp : 0 < c.perDecay)
    (hc : 0 < c.perCycle) (hb : 0 ≤ c.base) (s t : ℤ) (hst : s ≤ t) (u v : ℝ)
    (hu : stepFn defaultFactors c s = .ok u) (hv : stepFn defaultFactors c t = .ok v) :
    (elapsed c t ≤ c.warmup → u ≤ v) ∧ (c.warmup ≤ elapsed c s → v ≤ u) := by
  have hw' : (0 : ℝ) < c.warmup := by exact_mod_cast hw
  have he : elapsed c s ≤ elapsed c t := by unfold elapsed; omega
  have he' : (elapsed c s : ℝ) ≤ elapsed c t := by exact_mod_cast he
  constructor
  · intro h
    rw [(C44_default c hw hd hp hc s).1 (he.trans h)] at hu
    rw [(C44_default c hw hd hp hc t).1 h] at hv
    cases hu; cases hv
    refine max_le_max ?_ le_rfl
    refine mul_le_mul_of_nonneg_left ?_ (by positivity)
    gcongr
  · intro h
    rw [(C44_default c hw hd hp hc s).2 h] at hu
    rw [(C44_default c hw hd hp hc t).2 (h.trans he)] at hv
    cases hu; cases hv
    refine max_le_max ?_ le_rfl
    have : (0 : ℝ) < elapsed c s := by
      have : 0 < elapsed c s := by omega
      exact_mod_cast this
    gcongr

/-- **C44.** The cosine factor stays between 0 and 1 and repeats every cycle after the warm-up. -/
theorem C44_cosine (c : Cfg) (n : ℕ) :
    0 ≤ Factor.value c n .cosineDecay ∧ Factor.value c n .cosineDecay ≤ 1 ∧
    (c.warmup < n → Factor.value c (n + c.perCycle) .cosineDecay = Factor.value c n .cosineDecay) := by
  simp only [Factor.value]
  refine ⟨?_, ?_, ?_⟩
  · split_ifs
    · norm_num
    · have := Real.neg_one_le_cos (Real.pi * (((n - c.warmup) % c.perCycle : ℕ) / (c.perCycle : ℝ)))
      linarith
  · split_ifs
    · norm_num
    · have := Real.cos_le_one (Real.pi * (((n - c.warmup) % c.perCycle : ℕ) / (c.perCycle : ℝ)))
      linarith
  · intro h
    rw [if_neg (by omega), if_neg (by omega)]
    have : (n + c.perCycle - c.warmup) % c.perCycle = (n - c.warmup) % c.perCycle := by
      rw [show n + c.perCycle - c.warmup = (n - c.warmup) + c.perCycle by omega, Nat.add_mod_right]
    rw [this]

/-- A configuration satisfying the hypotheses, and a schedule string with uneven spacing. -/
noncomputable example : Cfg := ⟨1, 4, 1 / 2, 3, 10, 2, 0⟩
example : Lists "decay_every*  constant ".toList ([Factor.decayEvery, .constant].map Factor.name) := by
  have h := Lists.more [] [] Factor.decayEvery.name _ _ (by decide) (by decide)
    (Lists.one [' ', ' '] [' '] Factor.constant.name (by decide) (by decide))
  exact h
example : ∃ v, stepFn defaultFactors ⟨1, 4, 1 / 2, 3, 10, 2, 0⟩ 18 = .ok v ∧ v = 1 / 4 := by
  refine ⟨_, (C44_default _ (by norm_num) (by norm_num) (by norm_num) (by norm_num) 18).2
    (by decide), ?_⟩
  have h1 : elapsed ⟨1, 4, 1 / 2, 3, 10, 2, 0⟩ 18 = 16 := by simp [elapsed]
  rw [h1]
  have h2 : √((16 : ℕ) : ℝ) = 4 := by
    rw [show (((16 : ℕ)) : ℝ) = 4 ^ 2 by norm_num]
    exact Real.sqrt_sq (by norm_num)
  rw [h2]; norm_num
example : Clean "polynomial".toList ∧ ∀ f : Factor, "polynomial".toList ≠ f.name := by
  refine ⟨⟨by decide, by decide, by decide, by decide⟩, ?_⟩
  intro f; cases f <;> decide

/-! ### C45 -/

/-- **C45.** The rounded size is the least multiple of the divisor that is not below the vocabulary size. -/
theorem C45_least_multiple (size divisor : ℤ) (h : 0 < divisor) :
    divisor ∣ roundVocab size divisor ∧ size ≤ roundVocab size divisor ∧
      ∀ m, divisor ∣ m → size ≤ m → roundVocab size divisor ≤ m := by
  unfold roundVocab
  have h0 := Int.fmod_eq_emod_of_nonneg (-size) h.le
  rw [h0]
  have h1 := Int.emod_nonneg (-size) h.ne'
  have h2 := Int.emod_lt_of_pos (-size) h
  have h3 : divisor ∣ size + (-size) % divisor := by
    refine ⟨-(-size / divisor), ?_⟩
    have := Int.emod_add_mul_ediv (-size) divisor
    linarith
  refine ⟨h3, by omega, ?_⟩
  intro m hm hs
  by_contra hlt
  push Not at hlt
  have h4 : divisor ∣ size + (-size) % divisor - m := Int.dvd_sub h3 hm
  have h5 := Int.le_of_dvd (by omega) h4
  omega

example : roundVocab 32100 128 = 32128 := by decide
example : roundVocab 32128 128 = 32128 := by decide

end Verif.Schedule
