import Verif.Model.DecodeLimit
import Verif.Props.Sampling
/-
C138: how `max_decode_steps`, its hard limit and `num_decodes` limit the length of each decoded row.
-/
namespace Verif.DecodeLimit

open Verif.Sampling (expand expand_get expand_length maxDecodeLen Inp)

namespace Spec

/-- The number of tokens of a prompt: the entries of the row other than 0. -/
def tokens (row : List Int) : Int := (row.countP fun t => t ≠ 0)

/-- `m` steps are allowed when `k` are asked for: a positive hard limit caps them, another one does not. -/
def Allowed (hard : Option Int) (k m : Int) : Prop :=
  (∀ l, hard = some l → 0 < l → m = min k l) ∧ ((∀ l, hard = some l → l ≤ 0) → m = k)

/-- The number of steps is known while the sampler is traced: it is a plain value, and no hard limit made `jit` compute it. -/
def Known (hard : Option Int) (traced jit : Bool) : Prop :=
  traced = false ∧ (jit = true → ∀ l, hard = some l → l ≤ 0)

end Spec

open Spec

theorem limited_iff (hard : Option Int) : limited hard = true ↔ ∃ l, hard = some l ∧ 0 < l := by
  cases hard <;> simp [limited]

theorem allowed_unique {hard : Option Int} {k m : Int} (h : Allowed hard k m) : (if limited hard then min k (hard.getD 0) else k) = m := by
  cases hard with
  | none => simp only [limited]; exact (h.2 (by simp)).symm
  | some l =>
    by_cases hl : 0 < l
    · simp only [limited, Option.elim, gt_iff_lt, hl, decide_true, if_true, Option.getD_some]; exact (h.1 l rfl hl).symm
    · simp only [limited, Option.elim, gt_iff_lt, hl, decide_false, Bool.false_eq_true, if_false]
      exact (h.2 (by rintro l' h'; cases h'; omega)).symm

theorem known_iff (hard : Option Int) (traced jit : Bool) : isTracer traced jit hard = false ↔ Known hard traced jit := by
  unfold isTracer Known
  cases hard with
  | none => cases traced <;> simp [limited]
  | some l => cases traced <;> cases jit <;> simp [limited]

theorem loopRows_get (d : Nat) (inputs : List (List Int)) (b t : Nat) (ht : t < d) :
    (loopRows d inputs)[b * d + t]? = inputs[b]? := by
  unfold loopRows
  split_ifs with h
  · exact expand_get d inputs b t ht
  · have : d = 1 := by omega
    subst this
    have : t = 0 := by omega
    subst this
    simp

theorem loopRows_length (d : Nat) (inputs : List (List Int)) (hd : 0 < d) : (loopRows d inputs).length = inputs.length * d := by
  unfold loopRows
  split_ifs with h
  · exact expand_length d inputs
  · have : d = 1 := by omega
    subst this; simp

theorem tokens_eq (r : List Int) : ((r.filter (· ≠ 0)).length : Int) = tokens r := by
  unfold tokens; rw [List.countP_eq_length_filter]

/-- **C138** (one number).  Every decode of every row may hold as many tokens as its prompt and the allowed steps make, and never more than the row
has positions.  The call fails exactly when more steps than positions are allowed and the number is known while tracing. -/
theorem C138_scalar (n d : Nat) (hd : 0 < d) (inputs : List (List Int)) (k m : Int) (hard : Option Int) (traced jit : Bool)
    (hm : Allowed hard k m) :
    (∀ e, limits n d inputs (.one k) hard traced jit = .error e ↔ e = .tooMany ∧ (n : Int) < m ∧ Known hard traced jit) ∧
    (∀ L, limits n d inputs (.one k) hard traced jit = .ok L → L.length = inputs.length * d ∧
      ∀ b t r, t < d → inputs[b]? = some r → L[b * d + t]? = some (min (n : Int) (tokens r + m))) := by
  have e : clip hard (.one k) = .one m := by simp only [clip, allowed_unique hm]
  unfold limits
  rw [← known_iff]
  simp only [e]
  constructor
  · intro e
    by_cases h : isTracer traced jit hard = false ∧ m > n
    · simp only [if_pos h]
      constructor
      · intro h'; cases h'; exact ⟨rfl, h.2, h.1⟩
      · rintro ⟨rfl, -⟩; rfl
    · rw [if_neg h]
      constructor
      · intro h'; cases h'
      · rintro ⟨-, h1, h2⟩; exact absurd ⟨h2, h1⟩ h
  · intro L hL
    by_cases h : isTracer traced jit hard = false ∧ m > n
    · rw [if_pos h] at hL; cases hL
    · rw [if_neg h] at hL
      cases hL
      refine ⟨by simp [loopRows_length d inputs hd], fun b t r ht hr => ?_⟩
      rw [List.getElem?_map, List.getElem?_map, loopRows_get d inputs b t ht, hr]
      simp only [Option.map_some, tokens_eq]

/-- **C138** (no number).  The hard limit alone limits nothing: without `max_decode_steps` every row may be filled. -/
theorem C138_absent (n d : Nat) (hd : 0 < d) (inputs : List (List Int)) (hard : Option Int) (traced jit : Bool) :
    limits n d inputs .absent hard traced jit = .ok (List.replicate (inputs.length * d) (n : Int)) := by
  unfold limits
  simp only [clip, List.map_map]
  rw [← loopRows_length d inputs hd, ← List.map_const']
  rfl

/-- **C138** (a number for each row).  With one decode for each row, a traced vector limits each row by its own number. -/
theorem C138_rows (n : Nat) (inputs : List (List Int)) (ks : List Int) (hard : Option Int) (jit : Bool) (hl : ks.length = inputs.length) :
    ∃ L, limits n 1 inputs (.rows ks) hard true jit = .ok L ∧ L.length = inputs.length ∧
      ∀ (b : Nat) (r : List Int) (k m : Int), inputs[b]? = some r → ks[b]? = some k → Allowed hard k m →
        L[b]? = some (min (n : Int) (tokens r + m)) := by
  unfold limits
  simp only [clip, isTracer, Bool.true_or, if_true, addBroadcast, loopRows, gt_iff_lt, Nat.lt_irrefl, if_false, List.length_map, hl]
  refine ⟨_, rfl, by simp [hl], fun b r k m hr hk hm => ?_⟩
  simp only [List.getElem?_map, List.getElem?_zipWith, hr, hk, Option.map_some, allowed_unique hm, tokens_eq]

/-- **C138** (a number for each row and several decodes).  The rows are repeated and the numbers are not.  For a batch of two rows or more
the call fails, whether the numbers are known while tracing or not; a single row has its number applied to all its decodes. -/
theorem C138_decodes (n d : Nat) (hd : 1 < d) (inputs : List (List Int)) (ks : List Int) (hard : Option Int) (traced jit : Bool)
    (hl : ks.length = inputs.length) :
    (2 ≤ inputs.length → ∃ e, limits n d inputs (.rows ks) hard traced jit = .error e ∧
      (e = .ambiguous ↔ Known hard traced jit) ∧ (e = .shape ↔ ¬ Known hard traced jit)) ∧
    (∀ r k, inputs = [r] → ks = [k] → limits n d inputs (.rows ks) hard traced jit = limits n d inputs (.one k) hard traced jit) := by
  constructor
  · intro h2
    rcases ks with _ | ⟨k0, _ | ⟨k1, ks⟩⟩
    · simp at hl; omega
    · simp at hl; omega
    · rcases hi : inputs with _ | ⟨r0, _ | ⟨r1, rs⟩⟩
      · rw [hi] at h2; simp at h2
      · rw [hi] at h2; simp at h2
      · rw [← hi]
        have hlen := loopRows_length d inputs (by omega)
        have hne : ¬ (loopRows d inputs).length = inputs.length := by rw [hlen]; nlinarith
        have hsh : ∀ a : List Int, a.length = (loopRows d inputs).length → ∀ b : List Int, b.length = inputs.length →
            addBroadcast a b = .error .shape := by
          intro a ha b hb
          unfold addBroadcast
          rw [if_neg (by rw [ha, hb]; exact hne)]
          have ha2 : 2 ≤ a.length := by rw [ha, hlen]; nlinarith
          rcases a with _ | ⟨a0, _ | ⟨a1, a⟩⟩
          · simp at ha2
          · simp at ha2
          · rcases b with _ | ⟨b0, _ | ⟨b1, b⟩⟩
            · rfl
            · simp at hb; omega
            · rfl
        by_cases hk : Known hard traced jit
        · refine ⟨.ambiguous, ?_, by simp [hk], by simp [hk]⟩
          unfold limits
          simp only [clip, (known_iff hard traced jit).2 hk]
          rfl
        · refine ⟨.shape, ?_, by simp [hk], by simp [hk]⟩
          have ht : isTracer traced jit hard = true := by
            rw [← known_iff] at hk; simpa using hk
          unfold limits
          simp only [clip, ht, if_true]
          rw [hsh _ (by simp) _ (by simpa using hl)]
  · rintro r k rfl rfl
    have hlen := loopRows_length d [r] (by omega)
    unfold limits
    simp only [clip, List.map_cons, List.map_nil]
    generalize (if limited hard = true then min k (hard.getD 0) else k) = m
    have hadd : ∀ a : List Int, a.length = (loopRows d [r]).length → addBroadcast a [m] = .ok (a.map (· + m)) := by
      intro a ha
      unfold addBroadcast
      rw [if_neg (by rw [ha, hlen]; simp; omega)]
    cases ht : isTracer traced jit hard with
    | true =>
      simp only [if_true]
      rw [hadd _ (by simp)]
      simp
    | false =>
      by_cases hn : m > n
      · simp [checkRows, hn]
      · simp only [Bool.false_eq_true, if_false, checkRows, if_neg hn, hn, and_false]
        rw [hadd _ (by simp)]
        simp

/-- **C138** (the sampling loop).  For one number `k` of steps the limits are those with which the sampling loop is modelled. -/
theorem C138_sampling (n d : Nat) (hd : 0 < d) (inputs : List (List Int)) (k : Nat) (traced jit : Bool) (hk : k ≤ n)
    (hn : ∀ r ∈ inputs, r.length = n) (start : Option Nat) :
    ∃ L, limits n d inputs (.one k) none traced jit = .ok L ∧
      ∀ b t r, t < d → inputs[b]? = some r → L[b * d + t]? = some (maxDecodeLen (⟨r, start, some k⟩ : Inp) : Int) := by
  obtain ⟨h1, h2⟩ := C138_scalar n d hd inputs k k none traced jit ⟨by simp, by simp⟩
  cases h : limits n d inputs (.one k) none traced jit with
  | error e => exact absurd ((h1 e).1 h).2.1 (by omega)
  | ok L =>
    refine ⟨L, rfl, fun b t r ht hr => ?_⟩
    rw [(h2 L h).2 b t r ht hr]
    have := hn r (List.mem_of_getElem? hr)
    simp only [maxDecodeLen, this, ← tokens_eq]
    push_cast
    rfl

/-- Prompts of two and one tokens in rows of six positions. -/
def demo : List (List Int) := [[0, 5, 6, 0, 0, 0], [0, 7, 0, 0, 0, 0]]

example : Allowed (some 3) 9 3 := ⟨by rintro l h -; cases h; decide, fun h => by have := h 3 rfl; omega⟩
example : Known none false true := ⟨rfl, by simp⟩
example : limits 6 2 demo (.one 9) (some 3) false false = .ok [5, 5, 4, 4] := rfl
example : limits 6 2 demo (.one 9) none false false = .error .tooMany := rfl
example : limits 6 2 demo .absent (some 3) false false = .ok [6, 6, 6, 6] := rfl
example : limits 6 1 demo (.rows [1, 2]) none true true = .ok [3, 3] := rfl
example : limits 6 2 demo (.rows [1, 2]) none true true = .error .shape := rfl
example : limits 6 2 demo (.rows [1, 2]) none false false = .error .ambiguous := rfl
example : limits 6 2 [[0, 5, 6, 0, 0, 0]] (.rows [1]) none true true = .ok [3, 3] := rfl

end Verif.DecodeLimit
