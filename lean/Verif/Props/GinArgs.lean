import Verif.Common
import Verif.Model.GinArgs
/-
Property C51: `--gin.NAME=VALUE` flags.
-/
namespace Verif.GinArgs

namespace Spec

/-- How one argument is rewritten: a `--gin.NAME=VALUE` flag, where `NAME` is everything up to the
first `=` and `VALUE` everything after it, becomes one binding; anything else is passed on. -/
inductive Rewrites : Str → Str → Prop
  | other (a : Str) : ¬ "--gin.".toList <+: a → Rewrites a a
  | binding (name value : Str) : '=' ∉ name →
      Rewrites ("--gin.".toList ++ name ++ '=' :: value)
        ("--gin_bindings=".toList ++ name ++ " = ".toList ++ value)

/-- A flag that looks like a gin binding but has no `=`. -/
def Malformed (a : Str) : Prop := "--gin.".toList <+: a ∧ '=' ∉ a

end Spec
open Spec

theorem splitEq_spec (name value : Str) (h : '=' ∉ name) :
    splitEq (name ++ '=' :: value) = (name, value) := by
  induction name with
  | nil => simp [splitEq]
  | cons c s ih =>
    simp only [List.mem_cons, not_or] at h
    simp only [List.cons_append, splitEq]
    rw [if_neg (fun e => h.1 e.symm), ih h.2]

theorem exists_split (s : Str) (h : '=' ∈ s) : ∃ name value, '=' ∉ name ∧ s = name ++ '=' :: value := by
  induction s with
  | nil => simp at h
  | cons c s ih =>
    by_cases hc : c = '='
    · exact ⟨[], s, by simp, by simp [hc]⟩
    · have : '=' ∈ s := by
        rcases List.mem_cons.1 h with h | h
        · exact absurd h.symm hc
        · exact h
      obtain ⟨n, v, h1, h2⟩ := ih this
      refine ⟨c :: n, v, ?_, by simp [h2]⟩
      simp only [List.mem_cons, not_or]
      exact ⟨fun e => hc e.symm, h1⟩

theorem pre_noeq : '=' ∉ "--gin.".toList := by decide

theorem isPrefixOf_iff (a : Str) : pre.isPrefixOf a = true ↔ "--gin.".toList <+: a := by
  rw [List.isPrefixOf_iff_prefix]; rfl

theorem rewriteArg_ok (a b : Str) : rewriteArg a = .ok b ↔ Rewrites a b := by
  unfold rewriteArg
  by_cases hp : "--gin.".toList <+: a
  · have hp' : pre.isPrefixOf a = true := (isPrefixOf_iff a).2 hp
    obtain ⟨t, rfl⟩ := hp
    by_cases he : '=' ∈ t
    · obtain ⟨n, v, h1, rfl⟩ := exists_split t he
      have hc : ("--gin.".toList ++ (n ++ '=' :: v)).contains '=' = true := by
        simp
      rw [hp', hc]
      have hd : ("--gin.".toList ++ (n ++ '=' :: v)).drop 6 = n ++ '=' :: v := rfl
      simp only [Bool.not_true, Bool.false_eq_true, if_false, hd, splitEq_spec n v h1, Except.ok.injEq]
      constructor
      · rintro rfl
        have := Rewrites.binding n v h1
        rwa [List.append_assoc] at this
      · intro h
        generalize hg : "--gin.".toList ++ (n ++ '=' :: v) = g at h
        cases h with
        | other _ h2 => exact absurd ⟨_, hg⟩ h2
        | binding n' v' h2 =>
          have hg' : "--gin.".toList ++ (n ++ '=' :: v) = "--gin.".toList ++ (n' ++ '=' :: v') := by
            rw [hg, List.append_assoc]
          have h3 := List.append_cancel_left hg'
          have h4 := splitEq_spec n v h1
          rw [h3, splitEq_spec n' v' h2] at h4
          cases h4
          rfl
    · have hc : ("--gin.".toList ++ t).contains '=' = false := by
        rw [← Bool.not_eq_true, List.contains_iff_mem]
        simpa [pre_noeq] using he
      rw [hp', hc]
      simp only [Bool.not_true, Bool.false_eq_true, if_false, Bool.not_false, if_true, reduceCtorEq, false_iff]
      intro h
      generalize hg : "--gin.".toList ++ t = g at h
      cases h with
      | other _ h2 => exact h2 ⟨_, hg⟩
      | binding n v h2 =>
        rw [List.append_assoc] at hg
        exact he (by rw [List.append_cancel_left hg]; simp)
  · have hp' : pre.isPrefixOf a = false := by
      rw [← Bool.not_eq_true]; exact fun h => hp ((isPrefixOf_iff a).1 h)
    rw [hp']
    simp only [Bool.not_false, if_true, Except.ok.injEq]
    constructor
    · rintro rfl; exact .other _ hp
    · intro h
      cases h with
      | other => rfl
      | binding n v => exact absurd ⟨n ++ '=' :: v, by simp⟩ hp

theorem rewriteArg_error (a : Str) (e : Err) :
    rewriteArg a = .error e ↔ Malformed a ∧ e = .notABinding a := by
  unfold rewriteArg Malformed
  rw [← isPrefixOf_iff]
  cases hp : pre.isPrefixOf a with
  | false => simp
  | true =>
    cases hc : a.contains '=' with
    | true => simp [List.contains_iff_mem.1 hc]
    | false =>
      have : '=' ∉ a := by rw [← List.contains_iff_mem, hc]; simp
      simp [this, eq_comm]

/-- **C51.** Either every argument is well formed and the result is the list of rewritten arguments, in
order, one for one; or the call raises, naming the first malformed gin flag. -/
theorem C51_rewrite (args : List Str) :
    (∀ out, rewriteArgs args = .ok out ↔ List.Forall₂ Rewrites args out) ∧
    (∀ e, rewriteArgs args = .error e ↔ ∃ ok bad rest, args = ok ++ bad :: rest ∧
      (∀ a ∈ ok, ¬ Malformed a) ∧ Malformed bad ∧ e = .notABinding bad) := by
  induction args with
  | nil => simp [rewriteArgs]
  | cons a as ih =>
    unfold rewriteArgs
    cases hr : rewriteArg a with
    | error e =>
      obtain ⟨hm, he⟩ := (rewriteArg_error a e).1 hr
      subst he
      constructor
      · intro out
        simp only [reduceCtorEq, false_iff]
        intro h
        cases h with
        | cons h1 _ =>
          rw [← rewriteArg_ok, hr] at h1
          cases h1
      · intro e
        simp only [Except.error.injEq]
        constructor
        · rintro rfl
          exact ⟨[], a, as, rfl, by simp, hm, rfl⟩
        · rintro ⟨ok, bad, rest, h1, h2, h3, rfl⟩
          rcases ok with _ | ⟨b, ok⟩
          · simp at h1; rw [h1.1]
          · simp at h1; exact absurd hm (h1.1 ▸ h2 b (by simp))
    | ok b =>
      have hb := (rewriteArg_ok a b).1 hr
      have hnm : ¬ Malformed a := by
        intro h
        rw [(rewriteArg_error a (.notABinding a)).2 ⟨h, rfl⟩] at hr
        cases hr
      have hu : ∀ c, Rewrites a c → c = b := by
        intro c hc
        rw [← rewriteArg_ok, hr] at hc
        cases hc; rfl
      have hrest : ∀ e, (∃ ok bad rest, a :: as = ok ++ bad :: rest ∧
          (∀ a ∈ ok, ¬ Malformed a) ∧ Malformed bad ∧ e = Err.notABinding bad) ↔
          (∃ ok bad rest, as = ok ++ bad :: rest ∧
          (∀ a ∈ ok, ¬ Malformed a) ∧ Malformed bad ∧ e = Err.notABinding bad) := by
        intro e
        constructor
        · rintro ⟨ok, bad, rest, h1, h2, h3, rfl⟩
          rcases ok with _ | ⟨x, ok⟩
          · simp at h1; exact absurd (h1.1 ▸ h3) hnm
          · simp at h1
            exact ⟨ok, bad, rest, h1.2, fun y hy => h2 y (List.mem_cons_of_mem _ hy), h3, rfl⟩
        · rintro ⟨ok, bad, rest, h1, h2, h3, rfl⟩
          refine ⟨a :: ok, bad, rest, by simp [h1], ?_, h3, rfl⟩
          intro y hy
          rcases List.mem_cons.1 hy with rfl | hy
          · exact hnm
          · exact h2 y hy
      cases hs : rewriteArgs as with
      | error e =>
        rw [hs] at ih
        constructor
        · intro out
          simp only [reduceCtorEq, false_iff]
          intro h
          cases h with
          | cons _ h2 => exact absurd ((ih.1 _).2 h2) (by simp)
        · intro e'
          rw [hrest]
          exact ih.2 e'
      | ok bs =>
        rw [hs] at ih
        constructor
        · intro out
          simp only [Except.ok.injEq]
          constructor
          · rintro rfl
            exact .cons hb ((ih.1 bs).1 rfl)
          · intro h
            cases h with
            | cons h1 h2 =>
              rw [hu _ h1]
              have := (ih.1 _).2 h2
              cases this
              rfl
        · intro e
          rw [hrest, ← ih.2 e]
          simp

/-- **C51.** The number and the order of the arguments are kept, and every argument that is not a gin
binding is passed on unchanged at its position. -/
theorem C51_positions (args out : List Str) (h : rewriteArgs args = .ok out) :
    out.length = args.length ∧
      ∀ (i : Nat) (a : Str), args[i]? = some a → ¬ "--gin.".toList <+: a → out[i]? = some a := by
  have hf := ((C51_rewrite args).1 out).1 h
  refine ⟨hf.length_eq.symm, ?_⟩
  clear h
  induction hf with
  | nil => simp
  | cons h1 _ ih =>
    intro i a hi hn
    cases i with
    | zero =>
      simp only [List.getElem?_cons_zero, Option.some.injEq] at hi ⊢
      subst hi
      cases h1 with
      | other => rfl
      | binding n v => exact absurd ⟨n ++ '=' :: v, by simp⟩ hn
    | succ i => exact ih i a (by simpa using hi) hn

example : rewriteArgs ["train.py".toList, "--gin.MODEL=a=b".toList, "--gin_file=x".toList] =
    .ok ["train.py".toList, "--gin_bindings=MODEL = a=b".toList, "--gin_file=x".toList] := by decide
example : rewriteArgs ["--x".toList, "--gin.MODEL".toList, "--gin.N".toList] =
    .error (.notABinding "--gin.MODEL".toList) := by decide

end Verif.GinArgs
