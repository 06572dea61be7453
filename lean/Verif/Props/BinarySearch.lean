import Verif.Lemmas.BinarySearch
/-
Property theorems for `/repo/t5x/binary_search.py` (C01 - C05).
-/
namespace Verif.BinarySearch
open Spec

/-- **C01.** For every monotone predicate on int32 the search returns the
largest int32 at which it is false, and INT32_MIN if it is true everywhere. -/
theorem C01_int32_bsearch (p : Word → Bool) (hp : MonoInt p) :
    ((∃ y, p y = false) → IsLargestFalse p (int32Bsearch p)) ∧
    ((∀ y, p y = true) → int32Bsearch p = BitVec.intMin 32) := by
  obtain ⟨h1, h2⟩ := int32Bsearch_inv p hp
  constructor
  · rintro ⟨y, hy⟩
    have hle : ∀ y, p y = false → y.toInt ≤ (int32Bsearch p).toInt := by
      intro y hy
      by_contra hc
      have := h2 y (by omega)
      rw [hy] at this; cases this
    refine ⟨?_, hle⟩
    rcases h1 with h1 | h1
    · exact h1
    · have := hle y hy
      have e : y = int32Bsearch p := by
        apply BitVec.eq_of_toInt_eq
        have h3 := BitVec.le_toInt y
        rw [h1] at this ⊢
        have : (BitVec.intMin 32).toInt = -2 ^ 31 := by decide
        simp at h3
        omega
      rw [← e]; exact hy
  · intro h
    rcases h1 with h1 | h1
    · rw [h] at h1; cases h1
    · exact h1

/-- A non-trivial monotone predicate: `x > -5`. -/
example : MonoInt (fun x => decide (x.toInt > -5)) ∧
    (∃ y : Word, (fun x : Word => decide (x.toInt > -5)) y = false) ∧
    int32Bsearch (fun x => decide (x.toInt > -5)) = BitVec.ofInt 32 (-5) := by
  refine ⟨?_, ⟨BitVec.ofInt 32 (-7), by decide⟩, by decide +kernel⟩
  intro a b hab ha
  simp at *; omega

/-- **C02.** The int32 → float32 bit-pattern map is its own inverse (hence a
bijection) and monotone for the float order: a larger int32 gives a larger
float, except that -0.0 and +0.0 are distinct integers with the same value. -/
theorem C02_bit_pattern_order :
    (∀ x, monoBits (monoBits x) = x) ∧
    (∀ a b : Word, a.toInt < b.toInt → IsFinite (monoBits a) → IsFinite (monoBits b) →
      flt (monoBits a) (monoBits b) = true ∨
      (monoBits a = 0x80000000#32 ∧ monoBits b = 0#32)) := by
  refine ⟨monoBits_involutive, ?_⟩
  intro a b hab fa fb
  rw [flt_iff _ _ (finite_not_nan fa) (finite_not_nan fb)]
  have ha := toInt_key a
  have hb := toInt_key b
  have hk := key_mono_of_toInt a b (le_of_lt hab)
  have na := key_of_toNat (monoBits a)
  have nb := key_of_toNat (monoBits b)
  rcases lt_or_eq_of_le hk with h | h
  · exact Or.inl h
  · right
    rw [ha, hb] at hab
    have ia := monoBits_toNat_inj_ge a
    have ib := monoBits_toNat_inj_ge b
    have la := (monoBits a).isLt
    have lb := (monoBits b).isLt
    constructor <;> apply BitVec.eq_of_toNat_eq <;> simp <;>
      split_ifs at hab na nb <;> omega

example : ∃ a b : Word, a.toInt < b.toInt ∧ IsFinite (monoBits a) ∧ IsFinite (monoBits b) := by
  refine ⟨BitVec.ofInt 32 (-3), 5#32, by decide, ?_, ?_⟩ <;> rw [isFinite_iff] <;> decide

/-- **C03.** For every predicate monotone on finite floats the search returns
the largest finite float32 at which the predicate is false; if it is true at
every finite float, the result is -inf (never a NaN). -/
theorem C03_float32_bsearch (p : Word → Bool) (hp : MonoFloat p) :
    ((∃ y, IsFinite y ∧ p y = false) → IsLargestFalseFloat p (float32Bsearch p)) ∧
    ((∀ y, IsFinite y → p y = true) → decode (float32Bsearch p) = .negInf) := by
  obtain ⟨h1, _⟩ := C01_int32_bsearch _ (int32Predicate_mono p hp)
  have hinf : infMag = 255 * 2 ^ 23 := rfl
  constructor
  · rintro ⟨y, fy, hy⟩
    have hP : ∀ y, IsFinite y → p y = false → int32Predicate p (monoBits y) = false := by
      intro y fy hy
      rw [int32Predicate_eq, monoBits_involutive, if_pos ((isFinite_iff y).1 fy)]
      exact hy
    obtain ⟨hr, hmax⟩ := h1 ⟨_, hP y fy hy⟩
    have hk : ∀ y, IsFinite y → p y = false → key y ≤ key (float32Bsearch p) := by
      intro y fy hy
      have := key_mono_of_toInt _ _ (hmax _ (hP y fy hy))
      rwa [monoBits_involutive] at this
    rw [int32Predicate_eq] at hr
    by_cases hf : low31 (monoBits (int32Bsearch (int32Predicate p))) < infMag
    · rw [if_pos hf] at hr
      have fr : IsFinite (float32Bsearch p) := (isFinite_iff _).2 hf
      exact ⟨fr, hr, fun y fy hy =>
        (fle_iff _ _ (finite_not_nan fy) (finite_not_nan fr)).2 (hk y fy hy)⟩
    · exfalso
      rw [if_neg hf] at hr
      simp only [decide_eq_false_iff_not] at hr
      have h3 := hk y fy hy
      have h4 := (isFinite_iff y).1 fy
      have h5 := key_abs y
      have h6 : key (float32Bsearch p) = _ := key_of_toNat (float32Bsearch p)
      have h7 := key_abs (float32Bsearch p)
      have h8 : float32Bsearch p = monoBits (int32Bsearch (int32Predicate p)) := rfl
      rw [← h8] at hf hr
      rw [if_pos (by omega)] at h6
      omega
  · intro hall
    have hfalse : int32Predicate p (monoBits 0xff800000#32) = false := by
      rw [int32Predicate_eq, monoBits_involutive]
      rw [if_neg (by decide)]
      decide
    obtain ⟨hr, hmax⟩ := h1 ⟨_, hfalse⟩
    rw [int32Predicate_eq] at hr
    have hf : ¬ low31 (monoBits (int32Bsearch (int32Predicate p))) < infMag := by
      intro hf
      rw [if_pos hf, hall _ ((isFinite_iff _).2 hf)] at hr
      cases hr
    rw [if_neg hf] at hr
    simp only [decide_eq_false_iff_not] at hr
    have hk := key_mono_of_toInt _ _ (hmax _ hfalse)
    rw [monoBits_involutive] at hk
    have h8 : float32Bsearch p = monoBits (int32Bsearch (int32Predicate p)) := rfl
    rw [← h8] at hf hr hk
    have h6 := key_of_toNat (float32Bsearch p)
    have h7 := key_abs (float32Bsearch p)
    have h9 : key (0xff800000#32) = -(255 * 2 ^ 23) := by decide
    rw [h9] at hk
    rw [if_pos (by omega)] at h6
    rw [decode_key, if_neg hf, if_pos (by omega), if_pos (by omega)]

/-- Both branches are inhabited: `v >= 1.5` and the constantly true predicate. -/
example : MonoFloat (fun v => fle 0x3fc00000#32 v) ∧
    (∃ y, IsFinite y ∧ (fun v => fle 0x3fc00000#32 v) y = false) ∧
    MonoFloat (fun _ => true) ∧
    float32Bsearch (fun _ => true) = 0xff800000#32 := by
  have f1 : IsFinite 0x3fc00000#32 := by rw [isFinite_iff]; decide
  have f0 : IsFinite 0#32 := by rw [isFinite_iff]; decide
  refine ⟨?_, ⟨0#32, f0, ?_⟩, ?_, by decide +kernel⟩
  · intro a b fa fb hab ha
    rw [fle_iff _ _ (finite_not_nan f1) (finite_not_nan fa)] at ha
    rw [fle_iff _ _ (finite_not_nan fa) (finite_not_nan fb)] at hab
    rw [fle_iff _ _ (finite_not_nan f1) (finite_not_nan fb)]
    omega
  · rw [Bool.eq_false_iff]; intro h
    rw [fle_iff _ _ (finite_not_nan f1) (finite_not_nan f0)] at h
    revert h; decide
  · intro _ _ _ _ _ _; rfl


/-! ### negation -/

theorem fneg_toNat (x : Word) :
    (fneg x).toNat = if 2 ^ 31 ≤ x.toNat then x.toNat - 2 ^ 31 else x.toNat + 2 ^ 31 := by
  have hx := x.isLt
  have e1 : fneg x = ~~~ (x ^^^ 0x7fffffff#32) := by
    rw [← BitVec.xor_allOnes, BitVec.xor_assoc]; rfl
  have e2 : fneg x = (~~~ x) ^^^ 0x7fffffff#32 := by
    rw [← BitVec.xor_allOnes, BitVec.xor_assoc]; rfl
  have hn : (~~~ x).toNat = 2 ^ 32 - 1 - x.toNat := BitVec.toNat_not
  split
  · rename_i h
    rw [e1, BitVec.toNat_not, xor_low x h]; omega
  · rw [e2, xor_low _ (by omega)]; omega

theorem key_fneg (x : Word) : key (fneg x) = - key x ∧ low31 (fneg x) = low31 x := by
  have h := fneg_toNat x
  have hx := x.isLt
  have h1 := key_of_toNat x
  have h2 := key_of_toNat (fneg x)
  have : low31 (fneg x) = low31 x := by
    unfold low31; rw [h]; split <;> omega
  refine ⟨?_, this⟩
  rw [h1, h2, h]
  split_ifs <;> omega

theorem isFinite_fneg {x : Word} : IsFinite (fneg x) ↔ IsFinite x := by
  rw [isFinite_iff, isFinite_iff, (key_fneg x).2]

theorem fneg_fneg (x : Word) : fneg (fneg x) = x := by
  unfold fneg; rw [BitVec.xor_assoc]; simp

theorem not_nan_key (b : Word) : ¬ IsNaN b ↔ -(infMag : Int) ≤ key b ∧ key b ≤ infMag := by
  rw [not_nan_iff, ← key_abs]; omega

theorem isFinite_key (b : Word) : IsFinite b ↔ -(infMag : Int) < key b ∧ key b < infMag := by
  rw [isFinite_iff, ← key_abs]; omega

theorem not_negInf_key (b : Word) (h : ¬ IsNaN b) :
    decode b ≠ .negInf ↔ -(infMag : Int) < key b := by
  have hi : infMag = 255 * 2 ^ 23 := rfl
  rcases decode_cases b h with ⟨h1, h2, h3⟩ | ⟨h1, h2⟩ | ⟨h1, h2⟩ <;> rw [h1] <;> simp <;> omega

/-! ### top-k -/

theorem topkPredicate_mono (x : List Word) (k : Nat) (hx : ∀ v ∈ x, ¬ IsNaN v) :
    MonoFloat (topkPredicate fgt x k) := by
  intro a b fa fb hab ha
  rw [fle_iff _ _ (finite_not_nan fa) (finite_not_nan fb)] at hab
  unfold topkPredicate at *
  simp only [decide_eq_true_eq] at *
  refine le_trans ha ?_
  apply List.countP_mono_left
  intro v hv h
  unfold fgt at *
  rw [flt_iff _ _ (finite_not_nan (isFinite_fneg.2 fa)) (hx v hv)] at h
  rw [flt_iff _ _ (finite_not_nan (isFinite_fneg.2 fb)) (hx v hv)]
  rw [(key_fneg a).1] at h
  rw [(key_fneg b).1]
  omega

/-- Entries `v` with fewer than `k` strictly larger entries. -/
theorem topk_keep_iff (x : List Word) (k : Nat) (hk : 1 ≤ k)
    (hx : ∀ v ∈ x, ¬ IsNaN v ∧ decode v ≠ .negInf) (v : Word) (hv : v ∈ x) :
    fge v (fneg (float32Bsearch (topkPredicate fgt x k))) = true ↔
      x.countP (fun w => fgt w v) < k := by
  have hnan := fun w hw => (hx w hw).1
  have hi : infMag = 255 * 2 ^ 23 := rfl
  obtain ⟨h1, h2⟩ := C03_float32_bsearch _ (topkPredicate_mono x k hnan)
  generalize float32Bsearch (topkPredicate fgt x k) = r at *
  have hcount : ∀ c : Word, ¬ IsNaN c → ∀ d : Word, ¬ IsNaN d → key d ≤ key c →
      x.countP (fun w => fgt w c) ≤ x.countP (fun w => fgt w d) := by
    intro c hc d hd hcd
    apply List.countP_mono_left
    intro w hw h
    unfold fgt at *
    rw [flt_iff _ _ hc (hnan w hw)] at h
    rw [flt_iff _ _ hd (hnan w hw)]
    omega
  have hvn := hnan v hv
  have hvk := (not_negInf_key v hvn).1 (hx v hv).2
  by_cases hex : ∃ y, IsFinite y ∧ topkPredicate fgt x k y = false
  · obtain ⟨fr, hr, hmax⟩ := h1 hex
    have frn := isFinite_fneg.2 fr
    unfold fge
    rw [fle_iff _ _ (finite_not_nan frn) hvn]
    have hr' : x.countP (fun w => fgt w (fneg r)) < k := by
      unfold topkPredicate at hr
      simpa using hr
    constructor
    · intro hle
      exact lt_of_le_of_lt (hcount v hvn (fneg r) (finite_not_nan frn) hle) hr'
    · intro hlt
      by_cases fv : IsFinite v
      · have := hmax (fneg v) (isFinite_fneg.2 fv) (by
          unfold topkPredicate; rw [fneg_fneg]; simpa using hlt)
        rw [fle_iff _ _ (finite_not_nan (isFinite_fneg.2 fv)) (finite_not_nan fr),
          (key_fneg v).1] at this
        rw [(key_fneg r).1]
        omega
      · have := (isFinite_key (fneg r)).1 frn
        have h3 := (not_nan_key v).1 hvn
        rw [isFinite_key] at fv
        omega
  · have hall : ∀ y, IsFinite y → topkPredicate fgt x k y = true := by
      intro y fy
      by_contra hc
      exact hex ⟨y, fy, by simpa using hc⟩
    have hd := h2 hall
    have hrn : ¬ IsNaN r := by unfold IsNaN; rw [hd]; simp
    have hrk : key r = -infMag := by
      rcases decode_cases r hrn with ⟨g1, _, _⟩ | ⟨_, g2⟩ | ⟨g1, _⟩
      · rw [hd] at g1; cases g1
      · exact g2
      · rw [hd] at g1; cases g1
    have hnk := (key_fneg r).1
    have hrnn : ¬ IsNaN (fneg r) := by rw [not_nan_key, hnk]; omega
    unfold fge
    rw [fle_iff _ _ hrnn hvn, hnk, hrk]
    constructor
    · intro hle
      have h3 := (not_nan_key v).1 hvn
      have : x.countP (fun w => fgt w v) = 0 := by
        rw [List.countP_eq_zero]
        intro w hw h
        unfold fgt at h
        rw [flt_iff _ _ hvn (hnan w hw)] at h
        have := (not_nan_key w).1 (hnan w hw)
        omega
      omega
    · intro hlt
      by_contra hc
      have fv : IsFinite v := by rw [isFinite_key]; omega
      have := hall (fneg v) (isFinite_fneg.2 fv)
      unfold topkPredicate at this
      rw [fneg_fneg] at this
      simp only [decide_eq_true_eq] at this
      omega

/-- **C04.** `topk_mask` keeps exactly the entries that have fewer than `k`
strictly larger entries and replaces every other entry by `replace_val`;
length and positions are unchanged.  (No NaN and no -inf among the inputs;
+inf, signed zeros, subnormals and ties are covered.) -/
theorem C04_topk_mask (x : List Word) (k : Nat) (replaceVal : Word) (hk : 1 ≤ k)
    (hx : ∀ v ∈ x, ¬ IsNaN v ∧ decode v ≠ .negInf) :
    topkMask fgt fge x k replaceVal =
      x.map (fun v => if x.countP (fun w => fgt w v) < k then v else replaceVal) := by
  unfold topkMask
  apply List.map_congr_left
  intro v hv
  have := topk_keep_iff x k hk hx v hv
  by_cases h : x.countP (fun w => fgt w v) < k
  · rw [if_pos h, if_pos (this.2 h)]
  · rw [if_neg h, if_neg (fun h' => h (this.1 h'))]

/-- **C04** (cardinality).  At least `min k n` entries satisfy the keep
condition of `C04_topk_mask`, and fewer than `k` of them are strictly above any
given kept entry: more than `k` survivors are only possible through ties. -/
theorem C04_topk_count (x : List Word) (k : Nat) (hx : ∀ v ∈ x, ¬ IsNaN v) :
    min k x.length ≤ x.countP (fun v => decide (x.countP (fun w => fgt w v) < k)) := by
  by_cases hall : ∀ v ∈ x, x.countP (fun w => fgt w v) < k
  · have : x.countP (fun v => decide (x.countP (fun w => fgt w v) < k)) = x.length := by
      rw [List.countP_eq_length]; intro v hv; simpa using hall v hv
    omega
  · -- a dropped entry with the largest key
    have hne : x.filter (fun v => decide (¬ x.countP (fun w => fgt w v) < k)) ≠ [] := by
      intro h
      apply hall
      intro v hv
      by_contra hc
      have : v ∈ x.filter (fun v => decide (¬ x.countP (fun w => fgt w v) < k)) := by
        rw [List.mem_filter]; exact ⟨hv, by simpa using hc⟩
      rw [h] at this; cases this
    obtain ⟨d, hd, hmax⟩ : ∃ d ∈ x.filter (fun v => decide (¬ x.countP (fun w => fgt w v) < k)),
        ∀ v ∈ x.filter (fun v => decide (¬ x.countP (fun w => fgt w v) < k)), key v ≤ key d := by
      generalize x.filter (fun v => decide (¬ x.countP (fun w => fgt w v) < k)) = l at hne
      clear hall hx
      induction l with
      | nil => exact absurd rfl hne
      | cons a l ih =>
        by_cases hl : l = []
        · subst hl; exact ⟨a, by simp, by simp⟩
        · obtain ⟨d, hd, hm⟩ := ih hl
          by_cases h : key a ≤ key d
          · exact ⟨d, List.mem_cons_of_mem _ hd, by
              intro v hv
              rcases List.mem_cons.1 hv with rfl | hv
              · exact h
              · exact hm v hv⟩
          · exact ⟨a, by simp, by
              intro v hv
              rcases List.mem_cons.1 hv with rfl | hv
              · exact le_refl _
              · have := hm v hv; omega⟩
    rw [List.mem_filter] at hd
    obtain ⟨hdx, hdk⟩ := hd
    have hdk' : k ≤ x.countP (fun w => fgt w d) := by simpa using hdk
    refine le_trans (min_le_left _ _) (le_trans hdk' ?_)
    apply List.countP_mono_left
    intro w hw h
    by_contra hc
    have hm := hmax w (by rw [List.mem_filter]; exact ⟨hw, by simpa using hc⟩)
    unfold fgt at h
    rw [flt_iff _ _ (hx d hdx) (hx w hw)] at h
    omega

/-- Row 1.0, 2.0, 2.0, -0.0, 0.5 with k = 1: both copies of 2.0 survive. -/
example : (∀ v ∈ [0x3f800000#32, 0x40000000#32, 0x40000000#32, 0x80000000#32, 0x3f000000#32],
      ¬ IsNaN v ∧ decode v ≠ .negInf) := by
  intro v hv
  have hv' : IsFinite v := by
    rw [isFinite_iff]
    simp only [List.mem_cons, List.not_mem_nil, or_false] at hv
    rcases hv with rfl | rfl | rfl | rfl | rfl <;> decide
  refine ⟨finite_not_nan hv', ?_⟩
  obtain ⟨q, hq⟩ := hv'
  rw [hq]; simp

/-- **C04** (finding).  An entry -inf is always replaced, even if it is among
the top `k` (for instance when `k` is at least the row length): the cutoff is at
least the most negative finite float. -/
theorem C04_neg_inf_replaced (x : List Word) (k : Nat)
    (hx : ∀ v ∈ x, ¬ IsNaN v) (v : Word) (hv : decode v = .negInf) :
    fge v (fneg (float32Bsearch (topkPredicate fgt x k))) = false := by
  have hi : infMag = 255 * 2 ^ 23 := rfl
  obtain ⟨h1, h2⟩ := C03_float32_bsearch _ (topkPredicate_mono x k hx)
  generalize float32Bsearch (topkPredicate fgt x k) = r at *
  have hvn : ¬ IsNaN v := by unfold IsNaN; rw [hv]; simp
  have hvk : key v = -infMag := by
    rcases decode_cases v hvn with ⟨g1, _, _⟩ | ⟨_, g2⟩ | ⟨g1, _⟩
    · rw [hv] at g1; cases g1
    · exact g2
    · rw [hv] at g1; cases g1
  rw [Bool.eq_false_iff]
  intro h
  unfold fge at h
  by_cases hex : ∃ y, IsFinite y ∧ topkPredicate fgt x k y = false
  · obtain ⟨fr, _, _⟩ := h1 hex
    have frn := isFinite_fneg.2 fr
    rw [fle_iff _ _ (finite_not_nan frn) hvn] at h
    have := (isFinite_key _).1 frn
    omega
  · have hd := h2 (by
      intro y fy
      by_contra hc
      exact hex ⟨y, fy, by simpa using hc⟩)
    have hrn : ¬ IsNaN r := by unfold IsNaN; rw [hd]; simp
    have hrk : key r = -infMag := by
      rcases decode_cases r hrn with ⟨g1, _, _⟩ | ⟨_, g2⟩ | ⟨g1, _⟩
      · rw [hd] at g1; cases g1
      · exact g2
      · rw [hd] at g1; cases g1
    have hnk := (key_fneg r).1
    have hrnn : ¬ IsNaN (fneg r) := by rw [not_nan_key, hnk]; omega
    rw [fle_iff _ _ hrnn hvn] at h
    omega

/-! ### top-p -/

/-- A reduction that does not decrease when entries increase.  The exact sum of
the decoded values has this property, and so has a floating-point sum with a
fixed order of additions, since rounding is monotone. -/
def MonoSum (sum : List Word → Rat) : Prop :=
  ∀ xs ys : List Word, (∀ a ∈ xs, IsFinite a) → (∀ a ∈ ys, IsFinite a) →
    List.Forall₂ (fun a b => fle a b = true) xs ys → sum xs ≤ sum ys

/-- The mass of the entries selected by `keep` (others count as +0.0). -/
def massOf (sum : List Word → Rat) (probs : List Word) (keep : Word → Bool) : Rat :=
  sum (probs.map (fun v => if keep v then v else 0#32))

theorem toppPredicate_mono (sum : List Word → Rat) (hs : MonoSum sum) (probs : List Word) (p : Rat)
    (hx : ∀ v ∈ probs, IsFinite v ∧ fle 0#32 v = true) : MonoFloat (toppPredicate fge sum probs p) := by
  intro a b fa fb hab ha
  unfold toppPredicate at *
  simp only [decide_eq_true_eq] at *
  have f0 : IsFinite 0#32 := by rw [isFinite_iff]; decide
  have hfin : ∀ t : Word, ∀ c ∈ probs.map (fun v => if fge v t then v else 0#32), IsFinite c := by
    intro t c hc
    obtain ⟨v, hv, rfl⟩ := List.mem_map.1 hc
    split
    · exact (hx v hv).1
    · exact f0
  refine lt_of_le_of_lt (hs _ _ (hfin b) (hfin a) ?_) ha
  rw [List.forall₂_map_left_iff, List.forall₂_map_right_iff, List.forall₂_same]
  intro v hv
  have r0 : fle 0#32 0#32 = true := (fle_iff _ _ (finite_not_nan f0) (finite_not_nan f0)).2 (le_refl _)
  obtain ⟨fv, hv0⟩ := hx v hv
  have rv : fle v v = true := (fle_iff _ _ (finite_not_nan fv) (finite_not_nan fv)).2 (le_refl _)
  unfold fge
  by_cases hb : fle b v = true
  · have : fle a v = true := by
      rw [fle_iff _ _ (finite_not_nan fa) (finite_not_nan fv)]
      rw [fle_iff _ _ (finite_not_nan fb) (finite_not_nan fv)] at hb
      rw [fle_iff _ _ (finite_not_nan fa) (finite_not_nan fb)] at hab
      omega
    rw [if_pos hb, if_pos this]; exact rv
  · rw [if_neg hb]
    split
    · exact hv0
    · exact r0

/-- **C05.** With `keep` the set of entries that `topp_mask` leaves unmasked:
if all probabilities together reach mass `p`, then the kept entries have mass at
least `p`, and every upward-closed set of entries with mass at least `p`
contains the kept set (so the kept set is the smallest one); if the total stays
below `p`, everything is kept.  `keep` is upward closed, and masked entries
become `replace_val`. -/
theorem C05_topp_mask (sum : List Word → Rat) (hs : MonoSum sum) (logits probs : List Word) (p : Rat)
    (replaceVal : Word) (hx : ∀ v ∈ probs, IsFinite v ∧ fle 0#32 v = true) :
    ∃ keep : Word → Bool,
      toppMask fge sum logits probs p replaceVal =
        List.zipWith (fun pr l => if keep pr then l else replaceVal) probs logits ∧
      (∀ v ∈ probs, ∀ w ∈ probs, fle v w = true → keep v = true → keep w = true) ∧
      (p ≤ sum probs →
        p ≤ massOf sum probs keep ∧
        ∀ U : Word → Bool, (∀ v ∈ probs, ∀ w ∈ probs, fle v w = true → U v = true → U w = true) →
          (∃ v ∈ probs, U v = true) → p ≤ massOf sum probs U →
          ∀ v ∈ probs, keep v = true → U v = true) ∧
      (sum probs < p → ∀ v ∈ probs, keep v = true) := by
  obtain ⟨h1, h2⟩ := C03_float32_bsearch _ (toppPredicate_mono sum hs probs p hx)
  have hi : infMag = 255 * 2 ^ 23 := rfl
  refine ⟨fun v => fge v (float32Bsearch (toppPredicate fge sum probs p)), rfl, ?_, ?_, ?_⟩
  all_goals generalize float32Bsearch (toppPredicate fge sum probs p) = r at *
  · intro v hv w hw hvw hk
    have fv := finite_not_nan (hx v hv).1
    have fw := finite_not_nan (hx w hw).1
    unfold fge at *
    have hr : ¬ IsNaN r := by
      intro hr
      unfold IsNaN at hr
      unfold fle at hk
      rw [hr] at hk
      simp [FVal.le] at hk
    rw [fle_iff _ _ hr fv] at hk
    rw [fle_iff _ _ fv fw] at hvw
    rw [fle_iff _ _ hr fw]
    omega
  · intro hp
    -- the most negative finite float selects everything
    have fm : IsFinite 0xff7fffff#32 := by rw [isFinite_iff]; decide
    have hm : toppPredicate fge sum probs p 0xff7fffff#32 = false := by
      unfold toppPredicate
      simp only [decide_eq_false_iff_not, not_lt]
      refine le_trans hp (le_of_eq ?_)
      congr 1
      symm
      conv_rhs => rw [← List.map_id probs]
      apply List.map_congr_left
      intro v hv
      have : fge v 0xff7fffff#32 = true := by
        unfold fge
        rw [fle_iff _ _ (finite_not_nan fm) (finite_not_nan (hx v hv).1)]
        have := (isFinite_key v).1 (hx v hv).1
        have e : key 0xff7fffff#32 = -(255 * 2 ^ 23 - 1) := by decide
        omega
      rw [if_pos this]; rfl
    obtain ⟨fr, hr, hmax⟩ := h1 ⟨_, fm, hm⟩
    constructor
    · unfold toppPredicate at hr
      simpa [massOf] using hr
    · rintro U hU ⟨u0, hu0, hUu0⟩ hmass v hv hk
      by_contra hUv
      -- the smallest selected value is a threshold defining `U`
      obtain ⟨u, hu, hUu, hmin⟩ : ∃ u ∈ probs, U u = true ∧ ∀ w ∈ probs, U w = true → key u ≤ key w := by
        clear hs hx hU hp hm hmass hv h1 h2 hr hmax
        induction probs generalizing u0 with
        | nil => cases hu0
        | cons a l ih =>
          by_cases hex : ∃ w ∈ l, U w = true
          · obtain ⟨w, hw, hUw⟩ := hex
            obtain ⟨u, hu, hUu, hmin⟩ := ih w hw hUw
            by_cases ha : U a = true ∧ key a < key u
            · refine ⟨a, by simp, ha.1, ?_⟩
              intro z hz hUz
              rcases List.mem_cons.1 hz with rfl | hz
              · exact le_refl _
              · have := hmin z hz hUz; omega
            · refine ⟨u, List.mem_cons_of_mem _ hu, hUu, ?_⟩
              intro z hz hUz
              rcases List.mem_cons.1 hz with rfl | hz
              · by_contra hc; exact ha ⟨hUz, by omega⟩
              · exact hmin z hz hUz
          · rcases List.mem_cons.1 hu0 with rfl | h
            · refine ⟨u0, by simp, hUu0, ?_⟩
              intro z hz hUz
              rcases List.mem_cons.1 hz with rfl | hz
              · exact le_refl _
              · exact absurd ⟨z, hz, hUz⟩ hex
            · exact absurd ⟨u0, h, hUu0⟩ hex
      have fu := (hx u hu).1
      have hpu : toppPredicate fge sum probs p u = false := by
        unfold toppPredicate
        simp only [decide_eq_false_iff_not, not_lt]
        refine le_trans hmass (le_of_eq ?_)
        unfold massOf
        congr 1
        apply List.map_congr_left
        intro w hw
        have fw := (hx w hw).1
        have : U w = true ↔ fge w u = true := by
          unfold fge
          rw [fle_iff _ _ (finite_not_nan fu) (finite_not_nan fw)]
          constructor
          · exact hmin w hw
          · intro h
            exact hU u hu w hw ((fle_iff _ _ (finite_not_nan fu) (finite_not_nan fw)).2 h) hUu
        by_cases h : U w = true
        · rw [if_pos h, if_pos (this.1 h)]
        · rw [if_neg h, if_neg (fun h' => h (this.2 h'))]
      have hur := hmax u fu hpu
      unfold fge at hk
      rw [fle_iff _ _ (finite_not_nan fr) (finite_not_nan (hx v hv).1)] at hk
      rw [fle_iff _ _ (finite_not_nan fu) (finite_not_nan fr)] at hur
      exact hUv (hU u hu v hv
        ((fle_iff _ _ (finite_not_nan fu) (finite_not_nan (hx v hv).1)).2 (by omega)) hUu)
  · intro hlt v hv
    have hall : ∀ y, IsFinite y → toppPredicate fge sum probs p y = true := by
      intro y fy
      unfold toppPredicate
      simp only [decide_eq_true_eq]
      have f0 : IsFinite 0#32 := by rw [isFinite_iff]; decide
      refine lt_of_le_of_lt (hs _ _ ?_ (fun a ha => (hx a ha).1) ?_) hlt
      · intro c hc
        obtain ⟨v, hv, rfl⟩ := List.mem_map.1 hc
        split
        · exact (hx v hv).1
        · exact f0
      rw [List.forall₂_map_left_iff, List.forall₂_same]
      intro w hw
      obtain ⟨fw, hw0⟩ := hx w hw
      split
      · exact (fle_iff _ _ (finite_not_nan fw) (finite_not_nan fw)).2 (le_refl _)
      · exact hw0
    have hd := h2 hall
    show fge v r = true
    unfold fge fle
    rw [hd]
    obtain ⟨q, hq⟩ := (hx v hv).1
    rw [hq]
    rfl

/-- Exact sum of the values of the entries. -/
def exactSum (l : List Word) : Rat :=
  (l.map (fun b => match decode b with | .fin q => q | _ => 0)).sum

/-- The exact sum meets the hypothesis of `C05_topp_mask`, and a row of
probabilities 0.5, 0.25, 0.25 meets the other one. -/
example : MonoSum exactSum ∧
    ∀ v ∈ [0x3f000000#32, 0x3e800000#32, 0x3e800000#32], IsFinite v ∧ fle 0#32 v = true := by
  constructor
  · intro xs ys hx hy h
    induction h with
    | nil => simp
    | @cons a b l1 l2 hab _ ih =>
      have ih := ih (fun c hc => hx c (List.mem_cons_of_mem _ hc))
        (fun c hc => hy c (List.mem_cons_of_mem _ hc))
      obtain ⟨q, hq⟩ := hx a (by simp)
      obtain ⟨q', hq'⟩ := hy b (by simp)
      unfold fle at hab
      rw [hq, hq'] at hab
      simp only [FVal.le, decide_eq_true_eq] at hab
      simp only [exactSum, List.map_cons, List.sum_cons, hq, hq'] at *
      linarith
  · intro v hv
    have f0 : IsFinite 0#32 := by rw [isFinite_iff]; decide
    have fv : IsFinite v ∧ 0 ≤ key v := by
      rw [isFinite_iff]
      simp only [List.mem_cons, List.not_mem_nil, or_false] at hv
      rcases hv with rfl | rfl | rfl <;> decide
    refine ⟨fv.1, (fle_iff _ _ (finite_not_nan f0) (finite_not_nan fv.1)).2 ?_⟩
    rw [show key 0#32 = 0 by decide]; exact fv.2

end Verif.BinarySearch
