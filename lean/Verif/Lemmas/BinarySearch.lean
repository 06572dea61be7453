import Verif.Spec.BinarySearch
import Mathlib.Order.Monotone.Basic
import Mathlib.Tactic.Ring
import Mathlib.Tactic.Linarith
import Mathlib.Tactic.Positivity
import Mathlib.Tactic.NormNum
/-
Helper lemmas for the binary searches.
-/
namespace Verif.BinarySearch
open Spec

theorem foriLoop_succ {α : Type} (n : Nat) (body : Nat → α → α) (init : α) :
    foriLoop (n + 1) body init = body n (foriLoop n body init) := by
  simp [foriLoop, List.range_succ, List.foldl_append]

theorem foriLoop_zero {α : Type} (body : Nat → α → α) (init : α) :
    foriLoop 0 body init = init := rfl

/-- Setting a bit below the already decided ones adds its weight. -/
theorem or_bit (cur : Word) (j : Nat) (hj : j < 31) (h : cur.toNat % 2 ^ (j + 1) = 0) :
    (cur ||| (1#32 <<< j)).toNat = cur.toNat + 2 ^ j := by
  have hb : (1#32 <<< j).toNat = 2 ^ j := by
    rw [BitVec.toNat_shiftLeft]
    have : 2 ^ j < 2 ^ 32 := Nat.pow_lt_pow_right (by decide) (by omega)
    rw [show (1#32).toNat = 1 from rfl, Nat.shiftLeft_eq, one_mul, Nat.mod_eq_of_lt this]
  rw [BitVec.toNat_or, hb]
  obtain ⟨a, ha⟩ := Nat.dvd_of_mod_eq_zero h
  have hlt : 2 ^ j < 2 ^ (j + 1) := Nat.pow_lt_pow_right (by decide) (by omega)
  have := Nat.shiftLeft_add_eq_or_of_lt hlt a
  rw [Nat.shiftLeft_eq] at this
  rw [ha, Nat.mul_comm, ← this]

theorem toInt_or_bit (cur : Word) (j : Nat) (hj : j < 31) (h : cur.toNat % 2 ^ (j + 1) = 0) :
    (cur ||| (1#32 <<< j)).toInt = cur.toInt + 2 ^ j := by
  have h1 := or_bit cur j hj h
  obtain ⟨a, ha⟩ := Nat.dvd_of_mod_eq_zero h
  obtain ⟨c, hc⟩ : ∃ c, 2 ^ 31 = 2 ^ (j + 1) * c :=
    ⟨2 ^ (31 - (j + 1)), by rw [← Nat.pow_add]; congr 1; omega⟩
  have hlt : 2 ^ (j + 1) = 2 * 2 ^ j := by rw [Nat.pow_succ]; ring
  have hpos : 0 < 2 ^ j := Nat.pos_of_ne_zero (by positivity)
  have key : cur.toNat < 2 ^ 31 ↔ cur.toNat + 2 ^ j < 2 ^ 31 := by
    constructor
    · intro hh
      rw [ha, hc] at *
      have : a < c := Nat.lt_of_mul_lt_mul_left hh
      have : 2 ^ (j + 1) * (a + 1) ≤ 2 ^ (j + 1) * c := Nat.mul_le_mul_left _ this
      rw [Nat.mul_add] at this
      omega
    · omega
  rw [BitVec.toInt_eq_toNat_cond, BitVec.toInt_eq_toNat_cond, h1]
  have e : ((2 ^ j : Nat) : Int) = 2 ^ j := by push_cast; rfl
  by_cases hh : cur.toNat < 2 ^ 31
  · have := key.1 hh
    rw [if_pos (by omega), if_pos (by omega)]
    push_cast; rfl
  · have : ¬ cur.toNat + 2 ^ j < 2 ^ 31 := fun x => hh (key.2 x)
    rw [if_neg (by omega), if_neg (by omega)]
    push_cast; ring

/-- Loop invariant of `int32_bsearch` after `n` iterations. -/
structure LoopInv (p : Word → Bool) (n : Nat) (cur : Word) : Prop where
  low : cur.toNat % 2 ^ (31 - n) = 0
  here : p cur = false ∨ cur = BitVec.intMin 32
  above : ∀ x : Word, cur.toInt + 2 ^ (31 - n) ≤ x.toInt → p x = true

theorem loopInv_step (p : Word → Bool) (hp : MonoInt p) (n : Nat) (hn : n < 31) (cur : Word)
    (h : LoopInv p n cur) : LoopInv p (n + 1) (loopBody p n cur) := by
  have e1 : 31 - n = (30 - n) + 1 := by omega
  have e2 : 31 - (n + 1) = 30 - n := by omega
  have hlow : cur.toNat % 2 ^ ((30 - n) + 1) = 0 := by rw [← e1]; exact h.low
  have hdiv : cur.toNat % 2 ^ (30 - n) = 0 := by
    have := Nat.dvd_of_mod_eq_zero hlow
    exact Nat.mod_eq_zero_of_dvd (Nat.dvd_trans (Nat.pow_dvd_pow 2 (Nat.le_succ _)) this)
  have hI := toInt_or_bit cur (30 - n) (by omega) hlow
  have hN := or_bit cur (30 - n) (by omega) hlow
  unfold loopBody
  by_cases hm : p (cur ||| 1#32 <<< (30 - n)) = true
  · simp only [hm, if_true, BitVec.or_zero]
    refine ⟨by rw [e2]; exact hdiv, h.here, ?_⟩
    intro x hx
    rw [e2] at hx
    exact hp _ _ (by rw [hI]; exact hx) hm
  · simp only [Bool.not_eq_true] at hm
    simp only [hm, Bool.false_eq_true, if_false]
    refine ⟨by rw [e2, hN, Nat.add_mod, hdiv]; simp, Or.inl hm, ?_⟩
    intro x hx
    apply h.above
    rw [hI, e2] at hx
    rw [e1, pow_succ]
    linarith

theorem loopInv_all (p : Word → Bool) (hp : MonoInt p) (cur : Word) (h : LoopInv p 0 cur) (n : Nat)
    (hn : n ≤ 31) : LoopInv p n (foriLoop n (loopBody p) cur) := by
  induction n with
  | zero => simpa [foriLoop_zero] using h
  | succ n ih =>
    rw [foriLoop_succ]
    exact loopInv_step p hp n (by omega) _ (ih (by omega))

theorem int32Bsearch_inv (p : Word → Bool) (hp : MonoInt p) :
    (p (int32Bsearch p) = false ∨ int32Bsearch p = BitVec.intMin 32) ∧
    ∀ x : Word, (int32Bsearch p).toInt < x.toInt → p x = true := by
  have h0 : LoopInv p 0 (0#32 ||| (if p 0#32 then 1#32 <<< 31 else 0#32)) := by
    by_cases hz : p 0#32 = true
    · simp only [hz, if_true]
      refine ⟨by decide, Or.inr (by decide), ?_⟩
      intro x hx
      have e : (0#32 ||| 1#32 <<< 31).toInt = -2147483648 := by decide
      rw [e] at hx
      exact hp 0#32 x (by simp; norm_num at hx; exact hx) hz
    · simp only [Bool.not_eq_true] at hz
      simp only [hz, Bool.false_eq_true, if_false]
      refine ⟨by decide, Or.inl (by simpa using hz), ?_⟩
      intro x hx
      have := BitVec.toInt_lt (x := x)
      simp at hx this
      omega
  have h := loopInv_all p hp _ h0 31 (le_refl _)
  refine ⟨h.here, fun x hx => h.above x ?_⟩
  show _ + (1 : Int) ≤ _
  exact hx

/-! ### bit patterns -/

theorem fraction_lt (b : Word) : fraction b < 2 ^ 23 := Nat.mod_lt _ (by norm_num)
theorem exponent_lt (b : Word) : exponent b < 256 := Nat.mod_lt _ (by norm_num)

/-- Magnitude of the 31-bit pattern `m`. -/
def magOf (m : Nat) : Rat := magnitude (m / 2 ^ 23) (m % 2 ^ 23)

theorem magOf_strictMono : StrictMono magOf := by
  apply strictMono_nat_of_lt_succ
  intro m
  unfold magOf magnitude
  have hm : m % 2 ^ 23 < 2 ^ 23 := Nat.mod_lt _ (by norm_num)
  by_cases hf : m % 2 ^ 23 + 1 < 2 ^ 23
  · have h1 : (m + 1) / 2 ^ 23 = m / 2 ^ 23 := by omega
    have h2 : (m + 1) % 2 ^ 23 = m % 2 ^ 23 + 1 := by omega
    rw [h1, h2]
    split
    · apply mul_lt_mul_of_pos_right _ (by positivity)
      push_cast; linarith
    · apply mul_lt_mul_of_pos_right _ (by positivity)
      push_cast; linarith
  · have h1 : (m + 1) / 2 ^ 23 = m / 2 ^ 23 + 1 := by omega
    have h2 : (m + 1) % 2 ^ 23 = 0 := by omega
    have h3 : m % 2 ^ 23 = 2 ^ 23 - 1 := by omega
    rw [h1, h2, h3]
    rw [if_neg (by omega : ¬ m / 2 ^ 23 + 1 = 0)]
    split
    · rename_i he
      rw [he]
      norm_num
    · have : (2 : Rat) ^ (((m / 2 ^ 23 + 1 : Nat) : Int) - 150)
          = 2 * 2 ^ (((m / 2 ^ 23 : Nat) : Int) - 150) := by
        rw [show (((m / 2 ^ 23 + 1 : Nat) : Int) - 150) = 1 + (((m / 2 ^ 23 : Nat) : Int) - 150) by
          push_cast; ring]
        rw [zpow_add₀ (by norm_num)]
        simp
      rw [this]
      have hp : (0 : Rat) < 2 ^ (((m / 2 ^ 23 : Nat) : Int) - 150) := by positivity
      rw [← mul_assoc]
      apply mul_lt_mul_of_pos_right _ hp
      norm_num

theorem magOf_zero : magOf 0 = 0 := by simp [magOf, magnitude]

theorem magOf_nonneg (m : Nat) : 0 ≤ magOf m := by
  rw [← magOf_zero]; exact magOf_strictMono.monotone (Nat.zero_le _)

/-- Low 31 bits. -/
def low31 (b : Word) : Nat := b.toNat % 2 ^ 31

theorem exponent_eq (b : Word) : exponent b = low31 b / 2 ^ 23 := by
  unfold exponent low31; omega

theorem fraction_eq (b : Word) : fraction b = low31 b % 2 ^ 23 := by
  unfold fraction low31; omega

theorem signBit_eq (b : Word) : signBit b = decide (2 ^ 31 ≤ b.toNat) := by
  unfold signBit
  rw [← BitVec.testBit_toNat, Nat.testBit_eq_decide_div_mod_eq]
  have := b.isLt
  congr 1
  apply propext
  omega

/-- Integer key whose order is the IEEE order: sign and magnitude. -/
def key (b : Word) : Int := if signBit b then - (low31 b : Int) else (low31 b : Int)

/-- exponent-255, fraction-0 pattern -/
def infMag : Nat := 255 * 2 ^ 23

def magInt (k : Int) : Rat := if k < 0 then - magOf k.natAbs else magOf k.natAbs

theorem magInt_strictMono : StrictMono magInt := by
  intro a b hab
  unfold magInt
  by_cases ha : a < 0
  · by_cases hb : b < 0
    · simp only [ha, hb, if_true]
      have : b.natAbs < a.natAbs := by omega
      have := magOf_strictMono this
      linarith
    · simp only [ha, hb, if_true, if_false]
      have h1 : magOf 0 < magOf a.natAbs := magOf_strictMono (by omega)
      rw [magOf_zero] at h1
      have := magOf_nonneg b.natAbs
      linarith
  · have hb : ¬ b < 0 := by omega
    simp only [ha, hb, if_false]
    exact magOf_strictMono (by omega)

theorem decode_key (b : Word) :
    decode b = if low31 b < infMag then .fin (magInt (key b))
      else if low31 b = infMag then (if key b < 0 then .negInf else .posInf) else .nan := by
  unfold decode
  have hlt : low31 b < 2 ^ 31 := Nat.mod_lt _ (by norm_num)
  have hinf : infMag = 255 * 2 ^ 23 := rfl
  by_cases hf : low31 b < infMag
  · rw [if_pos hf, if_neg (by rw [exponent_eq]; omega)]
    congr 1
    unfold magInt key
    rw [exponent_eq, fraction_eq]
    cases hs : signBit b
    · simp [magOf]
    · simp only [if_true]
      by_cases hz : low31 b = 0
      · simp [hz, magOf_zero, magnitude]
      · rw [if_pos (by omega)]
        simp [magOf]
  · rw [if_neg hf, if_pos (by rw [exponent_eq]; omega)]
    by_cases he : low31 b = infMag
    · rw [if_pos (by rw [fraction_eq]; omega), if_pos he]
      unfold key
      cases hs : signBit b
      · simp
      · simp; omega
    · rw [if_neg (by rw [fraction_eq]; omega), if_neg he]

theorem isFinite_iff (b : Word) : IsFinite b ↔ low31 b < infMag := by
  unfold IsFinite
  rw [decode_key]
  constructor
  · rintro ⟨q, hq⟩
    by_contra h
    rw [if_neg h] at hq
    split at hq
    · split at hq <;> simp at hq
    · simp at hq
  · intro h
    exact ⟨_, by rw [if_pos h]⟩

theorem not_nan_iff (b : Word) : ¬ IsNaN b ↔ low31 b ≤ infMag := by
  unfold IsNaN
  rw [decode_key]
  split
  · simp; omega
  · split
    · split <;> simp <;> omega
    · simp; omega

theorem key_abs (b : Word) : (key b).natAbs = low31 b := by
  unfold key; split <;> simp

theorem decode_cases (b : Word) (h : ¬ IsNaN b) :
    (decode b = .fin (magInt (key b)) ∧ -(infMag : Int) < key b ∧ key b < infMag) ∨
    (decode b = .negInf ∧ key b = -infMag) ∨ (decode b = .posInf ∧ key b = infMag) := by
  rw [not_nan_iff] at h
  have hk := key_abs b
  have hi : infMag = 255 * 2 ^ 23 := rfl
  rw [decode_key]
  by_cases h1 : low31 b < infMag
  · rw [if_pos h1]; left; refine ⟨rfl, ?_, ?_⟩ <;> omega
  · rw [if_neg h1]
    have h2 : low31 b = infMag := by omega
    rw [if_pos h2]
    right
    by_cases h3 : key b < 0
    · rw [if_pos h3]; left; exact ⟨rfl, by omega⟩
    · rw [if_neg h3]; right; exact ⟨rfl, by omega⟩

theorem fle_iff (a b : Word) (ha : ¬ IsNaN a) (hb : ¬ IsNaN b) :
    fle a b = true ↔ key a ≤ key b := by
  have hi : infMag = 255 * 2 ^ 23 := rfl
  unfold fle
  rcases decode_cases a ha with ⟨h1, h2, h3⟩ | ⟨h1, h2⟩ | ⟨h1, h2⟩ <;>
  rcases decode_cases b hb with ⟨g1, g2, g3⟩ | ⟨g1, g2⟩ | ⟨g1, g2⟩ <;>
  rw [h1, g1] <;> simp only [FVal.le]
  · simp [magInt_strictMono.le_iff_le]
  all_goals simp <;> omega

theorem flt_iff (a b : Word) (ha : ¬ IsNaN a) (hb : ¬ IsNaN b) :
    flt a b = true ↔ key a < key b := by
  have hi : infMag = 255 * 2 ^ 23 := rfl
  unfold flt
  rcases decode_cases a ha with ⟨h1, h2, h3⟩ | ⟨h1, h2⟩ | ⟨h1, h2⟩ <;>
  rcases decode_cases b hb with ⟨g1, g2, g3⟩ | ⟨g1, g2⟩ | ⟨g1, g2⟩ <;>
  rw [h1, g1] <;> simp only [FVal.lt]
  · simp [magInt_strictMono.lt_iff_lt]
  all_goals simp <;> omega

theorem finite_not_nan {b : Word} (h : IsFinite b) : ¬ IsNaN b := by
  obtain ⟨q, hq⟩ := h
  unfold IsNaN; rw [hq]; simp

/-! ### the order-preserving map -/

theorem slt_zero (x : Word) : x.slt 0#32 = decide (2 ^ 31 ≤ x.toNat) := by
  rw [BitVec.slt_eq_decide]
  congr 1
  apply propext
  rw [BitVec.toInt_eq_toNat_cond]
  have := x.isLt
  simp
  split <;> omega

theorem xor_low (x : Word) (h : 2 ^ 31 ≤ x.toNat) :
    (x ^^^ 0x7fffffff#32).toNat = 2 ^ 31 + (2 ^ 31 - 1 - (x.toNat - 2 ^ 31)) := by
  have hx := x.isLt
  have e : x ^^^ 0x7fffffff#32 = (~~~ x) ^^^ 0x80000000#32 := by
    rw [← BitVec.xor_allOnes, BitVec.xor_assoc]
    congr 1
  have hn : (~~~ x).toNat = 2 ^ 32 - 1 - x.toNat := BitVec.toNat_not
  have hlt : (~~~ x).toNat < 2 ^ 31 := by omega
  have e2 : (~~~ x) ^^^ 0x80000000#32 = (~~~ x) + 0x80000000#32 := by
    symm
    rw [BitVec.add_eq_or_of_and_eq_zero]
    · ext i hi
      simp only [BitVec.getElem_or, BitVec.getElem_xor, BitVec.getElem_not]
      have : (0x80000000#32)[i] = decide (i = 31) := by
        rw [show (0x80000000#32) = BitVec.twoPow 32 31 from rfl, BitVec.getElem_twoPow]
      rw [this]
      by_cases h31 : i = 31
      · subst h31
        have : x[31] = true := by
          have := signBit_eq x
          unfold signBit at this
          rw [← BitVec.getLsbD_eq_getElem, this]; simpa using h
        simp [this]
      · simp [h31]
    · ext i hi
      simp only [BitVec.getElem_and, BitVec.getElem_not, BitVec.getElem_zero]
      have : (0x80000000#32)[i] = decide (i = 31) := by
        rw [show (0x80000000#32) = BitVec.twoPow 32 31 from rfl, BitVec.getElem_twoPow]
      rw [this]
      by_cases h31 : i = 31
      · subst h31
        have : x[31] = true := by
          have := signBit_eq x
          unfold signBit at this
          rw [← BitVec.getLsbD_eq_getElem, this]; simpa using h
        simp [this]
      · simp [h31]
  rw [e, e2, BitVec.toNat_add, hn]
  simp
  omega

theorem monoBits_toNat (x : Word) : (monoBits x).toNat =
    if 2 ^ 31 ≤ x.toNat then 2 ^ 31 + (2 ^ 31 - 1 - (x.toNat - 2 ^ 31)) else x.toNat := by
  unfold monoBits
  rw [slt_zero]
  by_cases h : 2 ^ 31 ≤ x.toNat
  · simp only [h, decide_true, if_true]; exact xor_low x h
  · simp only [h, decide_false, Bool.false_eq_true, if_false]; simp

theorem monoBits_involutive (x : Word) : monoBits (monoBits x) = x := by
  apply BitVec.eq_of_toNat_eq
  have := x.isLt
  rw [monoBits_toNat, monoBits_toNat]
  split_ifs <;> omega

theorem toInt_key (x : Word) :
    x.toInt = if 2 ^ 31 ≤ x.toNat then key (monoBits x) - 1 else key (monoBits x) := by
  have hx := x.isLt
  have hm := monoBits_toNat x
  rw [BitVec.toInt_eq_toNat_cond]
  unfold key low31
  rw [signBit_eq, hm]
  by_cases h : 2 ^ 31 ≤ x.toNat
  · simp only [if_pos h]
    rw [if_neg (by omega)]
    simp
    omega
  · simp only [if_neg h]
    rw [if_pos (by omega)]
    simp
    omega

theorem key_mono_of_toInt (a b : Word) (h : a.toInt ≤ b.toInt) :
    key (monoBits a) ≤ key (monoBits b) := by
  have ha := toInt_key a
  have hb := toInt_key b
  have la := a.isLt
  have lb := b.isLt
  rw [BitVec.toInt_eq_toNat_cond] at ha hb
  rw [BitVec.toInt_eq_toNat_cond, BitVec.toInt_eq_toNat_cond] at h
  split_ifs at ha hb h <;> omega

theorem exponent_mask (x : Word) :
    ((x &&& exponentBits) != exponentBits) = decide (low31 x < infMag) := by
  have he : exponentBits = 0x7f800000#32 := by decide
  rw [he]
  have h1 : (x &&& 0x7f800000#32).toNat = (x.toNat / 2 ^ 23 % 2 ^ 8) * 2 ^ 23 := by
    rw [BitVec.toNat_and]
    have : (0x7f800000#32).toNat = (2 ^ 8 - 1) <<< 23 := by decide
    rw [this]
    apply Nat.eq_of_testBit_eq
    intro i
    rw [Nat.testBit_and, Nat.testBit_shiftLeft, Nat.testBit_two_pow_sub_one,
      ← Nat.shiftLeft_eq, Nat.testBit_shiftLeft, Nat.testBit_mod_two_pow, ← Nat.shiftRight_eq_div_pow,
      Nat.testBit_shiftRight]
    by_cases hi : 23 ≤ i
    · simp only [hi, decide_true, Bool.true_and]
      rw [show 23 + (i - 23) = i by omega, Bool.and_comm]
    · simp [hi]
  have hx := x.isLt
  have hinf : infMag = 255 * 2 ^ 23 := rfl
  rw [Bool.eq_iff_iff]
  simp only [bne_iff_ne, decide_eq_true_eq, ne_eq]
  rw [← BitVec.toNat_inj, h1]
  simp only [low31]
  rw [show (0x7f800000#32).toNat = 255 * 2 ^ 23 by decide]
  omega

theorem sle_zero (x : Word) : (0#32).sle x = decide (x.toNat < 2 ^ 31) := by
  rw [BitVec.sle_eq_decide]
  congr 1
  apply propext
  rw [BitVec.toInt_eq_toNat_cond (x := x)]
  have := x.isLt
  simp
  split <;> omega

theorem int32Predicate_eq (p : Word → Bool) (x : Word) :
    int32Predicate p x = if low31 (monoBits x) < infMag then p (monoBits x)
      else decide ((monoBits x).toNat < 2 ^ 31) := by
  unfold int32Predicate
  simp only [exponent_mask, sle_zero]
  by_cases h : low31 (monoBits x) < infMag <;> simp [h]

theorem key_of_toNat (x : Word) :
    key x = if 2 ^ 31 ≤ x.toNat then -((x.toNat : Int) - 2 ^ 31) else (x.toNat : Int) := by
  unfold key low31
  rw [signBit_eq]
  have := x.isLt
  by_cases h : 2 ^ 31 ≤ x.toNat
  · simp [h]; omega
  · simp [h]; omega

theorem low31_key (x : Word) : (low31 x : Int) = |key x| := by
  rw [← key_abs, Int.natCast_natAbs]

theorem int32Predicate_mono (p : Word → Bool) (hp : MonoFloat p) : MonoInt (int32Predicate p) := by
  intro a b hab ha
  have hk := key_mono_of_toInt a b hab
  rw [int32Predicate_eq] at ha ⊢
  have hinf : infMag = 255 * 2 ^ 23 := rfl
  have ka := key_abs (monoBits a)
  have kb := key_abs (monoBits b)
  have na := key_of_toNat (monoBits a)
  have nb := key_of_toNat (monoBits b)
  by_cases fa : low31 (monoBits a) < infMag
  · rw [if_pos fa] at ha
    by_cases fb : low31 (monoBits b) < infMag
    · rw [if_pos fb]
      have Fa := (isFinite_iff _).2 fa
      have Fb := (isFinite_iff _).2 fb
      exact hp _ _ Fa Fb ((fle_iff _ _ (finite_not_nan Fa) (finite_not_nan Fb)).2 hk) ha
    · rw [if_neg fb]
      simp only [decide_eq_true_eq]
      split at nb
      · omega
      · omega
  · rw [if_neg fa] at ha
    simp only [decide_eq_true_eq] at ha
    rw [if_neg (by omega : ¬ 2 ^ 31 ≤ (monoBits a).toNat)] at na
    have : ¬ low31 (monoBits b) < infMag := by omega
    rw [if_neg this]
    simp only [decide_eq_true_eq]
    split at nb <;> omega

theorem monoBits_toNat_inj_ge (x : Word) : 2 ^ 31 ≤ (monoBits x).toNat ↔ 2 ^ 31 ≤ x.toNat := by
  rw [monoBits_toNat]; split <;> omega

end Verif.BinarySearch
