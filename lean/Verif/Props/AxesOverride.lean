import Verif.Spec.AxesOverride
import Verif.Lemmas.MultiOpt
import Mathlib.Data.List.Induction
namespace Verif.AxesOverride
open Verif Verif.StateDict Verif.MultiOpt
open Verif.StateDict.Spec (Named)
open Verif.OptaxState.Spec (arrayAt ProperDict)
open Verif.TrainState.Spec (axesPath)
open Verif.AxesOverride.Spec

variable {α : Type}

theorem lookup_spec (pats : Patterns) (name : Key) (names : Names) : lookup pats name = some names ↔ OverriddenBy pats name names := by
  induction pats with
  | nil => exact ⟨fun h => (by cases h), fun ⟨i, m, h, _⟩ => by simp at h⟩
  | cons x rest ih =>
    obtain ⟨m, v⟩ := x
    unfold lookup
    split_ifs with hm
    · constructor
      · rintro rfl
        exact ⟨0, m, rfl, hm, fun j _ _ hj => by omega⟩
      · rintro ⟨i, m', h1, h2, h3⟩
        cases i with
        | zero => simp only [List.getElem?_cons_zero, Option.some.injEq, Prod.mk.injEq] at h1; exact h1.2
        | succ i =>
          have := h3 0 m v (by omega) rfl
          rw [hm] at this
          cases this
    · rw [ih]
      constructor
      · rintro ⟨i, m', h1, h2, h3⟩
        refine ⟨i + 1, m', by simpa using h1, h2, fun j m2 v2 hj hj2 => ?_⟩
        cases j with
        | zero =>
          simp only [List.getElem?_cons_zero, Option.some.injEq, Prod.mk.injEq] at hj2
          rw [← hj2.1]
          simpa using hm
        | succ j => exact h3 j m2 v2 (by omega) (by simpa using hj2)
      · rintro ⟨i, m', h1, h2, h3⟩
        cases i with
        | zero =>
          simp only [List.getElem?_cons_zero, Option.some.injEq, Prod.mk.injEq] at h1
          rw [← h1.1] at h2
          exact absurd h2 hm
        | succ i => exact ⟨i, m', by simpa using h1, h2, fun j m2 v2 hj hj2 => h3 (j + 1) m2 v2 (by omega) (by simpa using hj2)⟩

theorem axesKey_eq (p : List Key) (h : p ≠ []) : axesKey p = axesPath p := by
  induction p with
  | nil => exact absurd rfl h
  | cons k ks ih =>
    cases ks with
    | nil => rfl
    | cons k2 ks =>
      have := ih (by simp)
      simp only [axesKey, axesPath, List.dropLast_cons₂, List.cons_append, List.getLast?_cons_cons] at this ⊢
      rw [this]

theorem axesPath_inj (p q : List Key) (hp : p ≠ []) (hq : q ≠ []) (h : axesPath p = axesPath q) : p = q := by
  rw [← axesKey_eq p hp, ← axesKey_eq q hq] at h
  obtain ⟨h1, h2⟩ := List.append_inj' h rfl
  have h3 := List.append_cancel_right (List.singleton_injective h2)
  rw [← List.dropLast_append_getLast hp, ← List.dropLast_append_getLast hq, h1]
  rw [List.getLast?_eq_getLast_of_ne_nil hp, List.getLast?_eq_getLast_of_ne_nil hq] at h3
  simp only [Option.getD_some] at h3
  rw [h3]

theorem axesPath_prefix (p q : List Key) (hp : p ≠ []) (hq : q ≠ []) (hq2 : Plain q) (h : axesPath p <+: axesPath q) : axesPath p = axesPath q := by
  rw [← axesKey_eq p hp, ← axesKey_eq q hq] at h ⊢
  obtain ⟨t, ht⟩ := h
  cases t using List.reverseRecOn with
  | nil => simpa using ht
  | append_singleton t x =>
    rw [← List.append_assoc] at ht
    obtain ⟨h1, -⟩ := List.append_inj' ht rfl
    have hm : p.getLast?.getD [] ++ "_axes".toList ∈ q.dropLast := by
      rw [← h1]
      simp [axesKey]
    exact absurd (List.suffix_append _ _) (hq2 _ (List.dropLast_subset q hm))

/-- What the loop does. -/
theorem loop_spec (pats : Patterns) (rank : α → Nat) (l : List (List Key × α)) (ax : List (List Key × Names)) (hn : (l.map Prod.fst).Nodup)
    (hne : ∀ e ∈ l, e.1 ≠ []) (hw : PyDict.WF ax) :
    ((∃ e ∈ l, ∃ ns, lookup pats (join e.1) = some ns ∧ rank e.2 ≠ ns.length) ∧ loop pats rank l ax = .error .rank) ∨
    ((∀ e ∈ l, ∀ ns, lookup pats (join e.1) = some ns → rank e.2 = ns.length) ∧
      ∃ ax', loop pats rank l ax = .ok ax' ∧ PyDict.WF ax' ∧
        (∀ e ∈ l, ∀ ns, lookup pats (join e.1) = some ns → PyDict.get ax' (axesPath e.1) = some ns) ∧
        (∀ q, (∀ e ∈ l, axesPath e.1 = q → lookup pats (join e.1) = none) → PyDict.get ax' q = PyDict.get ax q) ∧
        (∀ q ∈ PyDict.keys ax', q ∈ PyDict.keys ax ∨ ∃ e ∈ l, q = axesPath e.1)) := by
  induction l generalizing ax with
  | nil => exact Or.inr ⟨fun e he => (by cases he), ax, rfl, hw, fun e he => (by cases he), fun q _ => rfl, fun q hq => Or.inl hq⟩
  | cons x rest ih =>
    obtain ⟨p, a⟩ := x
    rw [List.map_cons, List.nodup_cons] at hn
    have hp : p ≠ [] := hne (p, a) List.mem_cons_self
    have hne' : ∀ e ∈ rest, e.1 ≠ [] := fun e he => hne e (List.mem_cons_of_mem _ he)
    have hnew : ∀ e ∈ rest, axesPath e.1 ≠ axesPath p := fun e he h =>
      hn.1 (List.mem_map.2 ⟨e, he, axesPath_inj e.1 p (hne' e he) hp h⟩)
    cases hl : lookup pats (join p) with
    | none =>
      simp only [loop, hl]
      rcases ih ax hn.2 hne' hw with ⟨⟨e, he, h⟩, h2⟩ | ⟨h1, ax', h2, h3, h4, h5, h6⟩
      · exact Or.inl ⟨⟨e, List.mem_cons_of_mem _ he, h⟩, h2⟩
      · refine Or.inr ⟨?_, ax', h2, h3, ?_, ?_, ?_⟩
        · intro e he ns hns
          rcases List.mem_cons.1 he with rfl | he
          · rw [hl] at hns; cases hns
          · exact h1 e he ns hns
        · intro e he ns hns
          rcases List.mem_cons.1 he with rfl | he
          · rw [hl] at hns; cases hns
          · exact h4 e he ns hns
        · exact fun q hq => h5 q fun e he => hq e (List.mem_cons_of_mem _ he)
        · intro q hq
          rcases h6 q hq with h | ⟨e, he, h⟩
          · exact Or.inl h
          · exact Or.inr ⟨e, List.mem_cons_of_mem _ he, h⟩
    | some ns0 =>
      simp only [loop, hl]
      by_cases hr : rank a ≠ ns0.length
      · rw [if_pos hr]
        exact Or.inl ⟨⟨_, List.mem_cons_self, ns0, hl, hr⟩, rfl⟩
      · rw [if_neg hr]
        push Not at hr
        rcases ih (PyDict.set ax (axesKey p) ns0) hn.2 hne' (PyDict.wf_set _ hw _ _) with ⟨⟨e, he, h⟩, h2⟩ | ⟨h1, ax', h2, h3, h4, h5, h6⟩
        · exact Or.inl ⟨⟨e, List.mem_cons_of_mem _ he, h⟩, h2⟩
        · refine Or.inr ⟨?_, ax', h2, h3, ?_, ?_, ?_⟩
          · intro e he ns hns
            rcases List.mem_cons.1 he with rfl | he
            · rw [hl] at hns; cases hns; exact hr
            · exact h1 e he ns hns
          · intro e he ns hns
            rcases List.mem_cons.1 he with rfl | he
            · rw [hl] at hns
              cases hns
              rw [h5 _ (fun e he h => absurd h (hnew e he)), PyDict.get_set, axesKey_eq p hp, if_pos rfl]
            · exact h4 e he ns hns
          · intro q hq
            have hqp : axesPath p ≠ q := fun h => by
              have := hq (p, a) List.mem_cons_self h
              rw [hl] at this
              cases this
            rw [h5 q fun e he => hq e (List.mem_cons_of_mem _ he), PyDict.get_set, axesKey_eq p hp, if_neg hqp]
          · intro q hq
            rcases h6 q hq with h | ⟨e, he, h⟩
            · rw [PyDict.keys_set] at h
              split_ifs at h with hm
              · exact Or.inl h
              · rcases List.mem_append.1 h with h | h
                · exact Or.inl h
                · rw [List.mem_singleton, axesKey_eq p hp] at h
                  exact Or.inr ⟨_, List.mem_cons_self, h⟩
            · exact Or.inr ⟨e, List.mem_cons_of_mem _ he, h⟩

theorem named_axesPath {p : List Key} (h : Named p) : Named (axesPath p) := by
  rw [← axesKey_eq p h.1]
  refine ⟨by simp [axesKey], fun k hk => ?_⟩
  rcases List.mem_append.1 hk with hk | hk
  · exact h.2 k (List.dropLast_subset p hk)
  · rw [List.mem_singleton] at hk
    rw [hk, List.mem_append]
    rintro (h1 | h1)
    · rw [List.getLast?_eq_getLast_of_ne_nil h.1] at h1
      exact h.2 _ (List.getLast_mem h.1) h1
    · exact absurd h1 (by decide)

theorem override_spec (pats : Patterns) (rank : α → Nat) (params : Dict α) (axes : Dict Names) (hp : ParamTree params) (ha : AxesTree axes) :
    ((∃ p a ns, arrayAt params p = some a ∧ OverriddenBy pats (join p) ns ∧ rank a ≠ ns.length) ∧
      overrideAxes pats rank params (some axes) = .error .rank) ∨
    ((∀ p a ns, arrayAt params p = some a → OverriddenBy pats (join p) ns → rank a = ns.length) ∧
      ∃ d, overrideAxes pats rank params (some axes) = .ok d ∧ ProperDict d ∧
        (∀ p ns, arrayAt params p ≠ none → OverriddenBy pats (join p) ns → arrayAt d (axesPath p) = some ns) ∧
        (∀ q, (∀ p ns, arrayAt params p ≠ none → OverriddenBy pats (join p) ns → axesPath p ≠ q) → arrayAt d q = arrayAt axes q)) := by
  have hit : ∀ p a, (p, a) ∈ items params ↔ arrayAt params p = some a := mem_items params hp.1
  have hwf : PyDict.WF (items axes) := items_nodup axes ha.1
  rcases loop_spec pats rank (items params) (items axes) (items_nodup params hp.1) (fun e he => (items_named params hp.1 e he).1) hwf with
    ⟨⟨e, he, ns, h1, h2⟩, h3⟩ | ⟨h1, ax, h2, h3, h4, h5, h6⟩
  · exact Or.inl ⟨⟨e.1, e.2, ns, (hit _ _).1 he, (lookup_spec _ _ _).1 h1, h2⟩, by simp only [overrideAxes, h3]⟩
  · have hkey : ∀ e ∈ ax, Named e.1 ∧ ∃ p, Plain p ∧ p ≠ [] ∧ e.1 = axesPath p := by
      intro e he
      rcases h6 e.1 (List.mem_map_of_mem he) with h | ⟨x, hx, h⟩
      · obtain ⟨y, hy, hye⟩ := List.mem_map.1 h
        have hq : arrayAt axes e.1 ≠ none := by
          rw [← hye, (mem_items axes ha.1 y.1 y.2).1 hy]; simp
        exact ⟨by rw [← hye]; exact items_named axes ha.1 y hy, ha.2 _ hq⟩
      · have hn := items_named params hp.1 x hx
        refine ⟨by rw [h]; exact named_axesPath hn, x.1, hp.2 _ ?_, hn.1, h⟩
        rw [(hit x.1 x.2).1 hx]
        simp
    obtain ⟨d, hd, hpd, hat⟩ := unflat_spec ax h3 (fun e he => (hkey e he).1) (fun e he e' he' hpre => by
      obtain ⟨-, p, hp1, hp2, hp3⟩ := hkey e he
      obtain ⟨-, q, hq1, hq2, hq3⟩ := hkey e' he'
      rw [hp3, hq3] at hpre ⊢
      exact axesPath_prefix p q hp2 hq2 hq1 hpre)
    have hget : ∀ q, arrayAt d q = PyDict.get ax q := by
      intro q
      apply Option.ext
      intro a
      rw [hat, PyDict.get_iff_mem ax h3]
    have hget0 : ∀ q, arrayAt axes q = PyDict.get (items axes) q := by
      intro q
      apply Option.ext
      intro a
      rw [PyDict.get_iff_mem _ hwf, mem_items axes ha.1]
    refine Or.inr ⟨?_, d, by simp only [overrideAxes, h2, hd], hpd, ?_, ?_⟩
    · exact fun p a ns hpa ho => h1 (p, a) ((hit p a).2 hpa) ns ((lookup_spec _ _ _).2 ho)
    · intro p ns hpa ho
      obtain ⟨a, hpa⟩ := Option.ne_none_iff_exists'.1 hpa
      rw [hget]
      exact h4 (p, a) ((hit p a).2 hpa) ns ((lookup_spec _ _ _).2 ho)
    · intro q hq
      rw [hget, hget0]
      refine h5 q fun e he heq => ?_
      cases hl : lookup pats (join e.1) with
      | none => rfl
      | some ns =>
        refine absurd heq (hq e.1 ns ?_ ((lookup_spec _ _ _).1 hl))
        rw [(hit e.1 e.2).1 he]
        simp

/-- **C76.** The names of a parameter become those of the first pattern that fully matches its name, and nothing else changes: parameters that no
pattern matches, or whose first match has the value `None`, keep their names. -/
theorem C76_override (pats : Patterns) (rank : α → Nat) (params : Dict α) (axes d : Dict Names) (hp : ParamTree params) (ha : AxesTree axes)
    (h : overrideAxes pats rank params (some axes) = .ok d) :
    (∀ p ns, arrayAt params p ≠ none → OverriddenBy pats (join p) ns → arrayAt d (axesPath p) = some ns) ∧
    (∀ q, (∀ p ns, arrayAt params p ≠ none → OverriddenBy pats (join p) ns → axesPath p ≠ q) → arrayAt d q = arrayAt axes q) := by
  rcases override_spec pats rank params axes hp ha with ⟨-, e⟩ | ⟨-, d', e, -, h1, h2⟩
  · rw [e] at h; cases h
  · rw [e] at h; cases h; exact ⟨h1, h2⟩

/-- **C76.** It succeeds exactly if every override has as many names as its parameter has dimensions, and otherwise fails with the error about ranks. -/
theorem C76_rank (pats : Patterns) (rank : α → Nat) (params : Dict α) (axes : Dict Names) (hp : ParamTree params) (ha : AxesTree axes) :
    ((∃ d, overrideAxes pats rank params (some axes) = .ok d) ↔
      ∀ p a ns, arrayAt params p = some a → OverriddenBy pats (join p) ns → rank a = ns.length) ∧
    ∀ e, overrideAxes pats rank params (some axes) = .error e → e = .rank := by
  rcases override_spec pats rank params axes hp ha with ⟨⟨p, a, ns, h1, h2, h3⟩, e⟩ | ⟨h1, d, e, -⟩
  · rw [e]
    exact ⟨⟨fun ⟨_, h⟩ => (by cases h), fun h => absurd (h p a ns h1 h2) h3⟩, fun e h => (by cases h; rfl)⟩
  · rw [e]
    exact ⟨⟨fun _ => h1, fun _ => ⟨d, rfl⟩⟩, fun e h => (by cases h)⟩

/-- **C76.** If the axes fit the parameters' ranks before, they do afterwards. -/
theorem C76_ranks_kept (pats : Patterns) (rank : α → Nat) (params : Dict α) (axes d : Dict Names) (hp : ParamTree params) (ha : AxesTree axes)
    (h : overrideAxes pats rank params (some axes) = .ok d)
    (hr : ∀ p a ns, arrayAt params p = some a → arrayAt axes (axesPath p) = some ns → rank a = ns.length) :
    ∀ p a ns, arrayAt params p = some a → arrayAt d (axesPath p) = some ns → rank a = ns.length := by
  intro p a ns hpa hns
  obtain ⟨h1, h2⟩ := C76_override pats rank params axes d hp ha h
  by_cases ho : ∃ ns', OverriddenBy pats (join p) ns'
  · obtain ⟨ns', ho⟩ := ho
    have := h1 p ns' (by rw [hpa]; simp) ho
    rw [hns] at this
    cases this
    exact ((C76_rank pats rank params axes hp ha).1.1 ⟨d, h⟩) p a ns hpa ho
  · have hp0 : p ≠ [] := (items_named params hp.1 _ ((mem_items params hp.1 p a).2 hpa)).1
    refine hr p a ns hpa ?_
    rw [← hns]
    refine (h2 _ fun p' ns' hp' ho' heq => ?_).symm
    obtain ⟨a', hpa'⟩ := Option.ne_none_iff_exists'.1 hp'
    have hp0' : p' ≠ [] := (items_named params hp.1 _ ((mem_items params hp.1 p' a').2 hpa')).1
    have := axesPath_inj p' p hp0' hp0 heq
    subst this
    exact ho ⟨ns', ho'⟩

/-- **C76.** A model without axes is rejected. -/
theorem C76_no_axes (pats : Patterns) (rank : α → Nat) (params : Dict α) : overrideAxes pats rank params none = .error .noAxes := rfl

/-! Two parameters, of which one is given new names. -/

def exParams : Dict Nat := .sub "enc".toList (.leaf "kernel".toList 2 (.leaf "bias".toList 1 .nil)) .nil
def exAxes : Dict Names := .sub "enc".toList (.leaf "kernel_axes".toList ["embed".toList, "mlp".toList] .nil) .nil
def exPats : Patterns :=
  [(fun k => k == "enc/bias".toList, some ["mlp".toList]), (fun k => k == "enc/kernel".toList, none), (fun _ => true, some ["x".toList])]

example : overrideAxes exPats id exParams (some exAxes) =
    .ok (.sub "enc".toList (.leaf "kernel_axes".toList ["embed".toList, "mlp".toList] (.leaf "bias_axes".toList ["mlp".toList] .nil)) .nil) := by rfl
example : overrideAxes [(fun _ => true, some ["x".toList])] id exParams (some exAxes) = .error .rank := by rfl
example : OverriddenBy exPats "enc/bias".toList ["mlp".toList] := (lookup_spec _ _ _).1 rfl
example : ParamTree exParams ∧ AxesTree exAxes := by
  have hpp : ProperDict exParams := by
    simp only [ProperDict, exParams, StateDict.Spec.Proper, Dict.keys]
    decide
  have hpa : ProperDict exAxes := by
    simp only [ProperDict, exAxes, StateDict.Spec.Proper, Dict.keys]
    decide
  refine ⟨⟨hpp, fun p hp => ?_⟩, hpa, fun q hq => ?_⟩
  · obtain ⟨a, ha⟩ := Option.ne_none_iff_exists'.1 hp
    have hm := (mem_items exParams hpp p a).2 ha
    have hall : ∀ e ∈ items exParams, Plain e.1 := by unfold Plain; decide
    exact hall _ hm
  · obtain ⟨a, ha⟩ := Option.ne_none_iff_exists'.1 hq
    have hm := (mem_items exAxes hpa q a).2 ha
    have hall : ∀ e ∈ items exAxes, e.1 = axesPath ["enc".toList, "kernel".toList] := by decide
    exact ⟨_, by unfold Plain; decide, by simp, hall _ hm⟩

end Verif.AxesOverride
