import Verif.Lemmas.Importer
import Mathlib.Data.List.Induction
/-
C49: importing legacy T5 checkpoints.
-/
namespace Verif.Importer
open Verif Verif.Ckpt Spec

variable {V : Type}

/-! ### The translator, for any rules and any checkpoint -/

/-- What the rules make of one variable, if they keep it. -/
def translated (rules : List (Rule V)) (kv : Key × V) : Option (Key × V) :=
  match firstMatch rules kv.1 with
  | none => none
  | some f =>
    match f kv.2 with
    | .ok (some k', v') => some (k', v')
    | _ => none

/-- C49: the rule used for a key is the first, in order of registration, whose pattern matches. -/
theorem C49_first_rule (rules : List (Rule V)) (k : Key) (f : V → Except Err (Option Key × V)) :
    firstMatch rules k = some f ↔ ∃ pre r post, rules = pre ++ r :: post ∧ r k = some f ∧ ∀ r' ∈ pre, r' k = none := by
  induction rules with
  | nil => simp [firstMatch]
  | cons r rs ih =>
    unfold firstMatch
    cases hr : r k with
    | some g =>
      constructor
      · intro h
        refine ⟨[], r, rs, rfl, ?_, by simp⟩
        simpa [hr] using h
      · rintro ⟨pre, r0, post, he, h1, h2⟩
        cases pre with
        | nil =>
          simp only [List.nil_append, List.cons.injEq] at he
          rw [← he.1, hr] at h1
          exact h1
        | cons a pre =>
          simp only [List.cons_append, List.cons.injEq] at he
          have := h2 a (by simp)
          rw [← he.1, hr] at this
          cases this
    | none =>
      dsimp only
      rw [ih]
      constructor
      · rintro ⟨pre, r0, post, he, h1, h2⟩
        refine ⟨r :: pre, r0, post, by rw [he]; rfl, h1, ?_⟩
        intro r' hr'
        rcases List.mem_cons.mp hr' with rfl | h
        · exact hr
        · exact h2 r' h
      · rintro ⟨pre, r0, post, he, h1, h2⟩
        cases pre with
        | nil =>
          simp only [List.nil_append, List.cons.injEq] at he
          rw [← he.1, hr] at h1
          cases h1
        | cons a pre =>
          simp only [List.cons_append, List.cons.injEq] at he
          exact ⟨pre, r0, post, he.2, h1, fun r' h => h2 r' (by simp [h])⟩

theorem applyLoop_spec (rules : List (Rule V)) : ∀ (d : List (Key × V)) (new : List (Key × V)) (un : List Key),
    (∀ kv ∈ d, ∀ f, firstMatch rules kv.1 = some f → ∃ r, f kv.2 = .ok r) →
    applyLoop rules d (new, un) = .ok (PyDict.update new (d.filterMap (translated rules)),
      un ++ (d.filter fun kv => (firstMatch rules kv.1).isNone).map Prod.fst) := by
  intro d
  induction d with
  | nil => intro new un _; simp [applyLoop, PyDict.update]
  | cons kv d ih =>
    obtain ⟨k, v⟩ := kv
    intro new un h
    have ht := fun kv hkv => h kv (List.mem_cons_of_mem _ hkv)
    cases hf : firstMatch rules k with
    | none =>
      simp only [applyLoop, hf, ih _ _ ht, List.filterMap_cons, translated, List.filter_cons, Option.isNone_none, if_true, List.map_cons]
      simp
    | some f =>
      obtain ⟨⟨k', v'⟩, hr⟩ := h (k, v) (by simp) f hf
      dsimp only at hr
      cases k' with
      | none =>
        simp only [applyLoop, hf, hr, ih _ _ ht, List.filterMap_cons, translated, List.filter_cons, Option.isNone_some, Bool.false_eq_true, if_false]
      | some k' =>
        simp only [applyLoop, hf, hr, ih _ _ ht, List.filterMap_cons, translated, List.filter_cons, Option.isNone_some, Bool.false_eq_true, if_false]
        rfl

theorem update_wf_get (e : List (Key × V)) : PyDict.WF (PyDict.update [] e) ∧ ∀ k, PyDict.get (PyDict.update [] e) k = PyDict.get e.reverse k := by
  refine ⟨PyDict.wf_update [] e (by simp [PyDict.WF, PyDict.keys]), ?_⟩
  induction e using List.reverseRecOn with
  | nil => intro k; rfl
  | append_singleton e x ih =>
    intro k
    have : PyDict.update [] (e ++ [x]) = PyDict.set (PyDict.update [] e) x.1 x.2 := by
      unfold PyDict.update
      rw [List.foldl_append]; rfl
    rw [this, PyDict.get_set, ih k]
    rw [List.reverse_append]
    obtain ⟨a, b⟩ := x
    simp [PyDict.get]

/-- C49: if every variable is matched and no conversion raises, the result holds exactly the converted variables: those whose
rule returns no key are dropped, and where several variables convert to one key the last one wins. -/
theorem C49_apply (rules : List (Rule V)) (d : List (Key × V))
    (h : ∀ kv ∈ d, ∃ f r, firstMatch rules kv.1 = some f ∧ f kv.2 = .ok r) :
    ∃ new, apply rules d = .ok new ∧ PyDict.WF new ∧ ∀ k, PyDict.get new k = PyDict.get (d.filterMap (translated rules)).reverse k := by
  refine ⟨PyDict.update [] (d.filterMap (translated rules)), ?_, (update_wf_get _).1, (update_wf_get _).2⟩
  unfold apply
  rw [applyLoop_spec]
  · have : (d.filter fun kv => (firstMatch rules kv.1).isNone) = [] := by
      rw [List.filter_eq_nil_iff]
      intro kv hkv
      obtain ⟨f, r, hf, _⟩ := h kv hkv
      simp [hf]
    simp [this]
  · intro kv hkv f hf
    obtain ⟨f', r, hf', hr⟩ := h kv hkv
    rw [hf] at hf'
    cases hf'
    exact ⟨r, hr⟩

theorem applyLoop_un (rules : List (Rule V)) : ∀ (d : List (Key × V)) (new : List (Key × V)) (un : List Key) (r : List (Key × V) × List Key),
    applyLoop rules d (new, un) = .ok r → (∀ k ∈ un, k ∈ r.2) ∧ ∀ kv ∈ d, firstMatch rules kv.1 = none → kv.1 ∈ r.2 := by
  intro d
  induction d with
  | nil => intro new un r h; cases h; exact ⟨fun k hk => hk, by simp⟩
  | cons kv d ih =>
    obtain ⟨k, v⟩ := kv
    intro new un r h
    cases hf : firstMatch rules k with
    | none =>
      simp only [applyLoop, hf] at h
      obtain ⟨h1, h2⟩ := ih _ _ _ h
      refine ⟨fun x hx => h1 x (by simp [hx]), ?_⟩
      intro kv hkv hn
      rcases List.mem_cons.mp hkv with rfl | hm
      · exact h1 _ (by simp)
      · exact h2 kv hm hn
    | some f =>
      simp only [applyLoop, hf] at h
      cases hv : f v with
      | error e => rw [hv] at h; cases h
      | ok q =>
        obtain ⟨k', v'⟩ := q
        rw [hv] at h
        have rest : ∀ new', applyLoop rules d (new', un) = .ok r → (∀ k ∈ un, k ∈ r.2) ∧ ∀ kv ∈ (k, v) :: d, firstMatch rules kv.1 = none → kv.1 ∈ r.2 := by
          intro new' h
          obtain ⟨h1, h2⟩ := ih _ _ _ h
          refine ⟨h1, ?_⟩
          intro kv hkv hn
          rcases List.mem_cons.mp hkv with rfl | hm
          · rw [hf] at hn; cases hn
          · exact h2 kv hm hn
        cases k' with
        | none => exact rest _ h
        | some k' => exact rest _ h

/-- C49: a checkpoint with a variable that no rule matches is never imported; if no conversion raises the error is the one that lists
the unmapped keys. -/
theorem C49_unmatched (rules : List (Rule V)) (d : List (Key × V)) (h : ∃ kv ∈ d, firstMatch rules kv.1 = none) :
    (∀ new, apply rules d ≠ .ok new) ∧
    ((∀ kv ∈ d, ∀ f, firstMatch rules kv.1 = some f → ∃ r, f kv.2 = .ok r) → apply rules d = .error .unmapped) := by
  obtain ⟨kv, hkv, hn⟩ := h
  constructor
  · intro new hne
    unfold apply at hne
    cases hl : applyLoop rules d ([], []) with
    | error e => rw [hl] at hne; cases hne
    | ok r =>
      rw [hl] at hne
      have := (applyLoop_un rules d [] [] r hl).2 kv hkv hn
      dsimp only at hne
      rw [if_pos (by intro h0; rw [h0] at this; simp at this)] at hne
      cases hne
  · intro hr
    unfold apply
    rw [applyLoop_spec rules d [] [] hr]
    dsimp only
    rw [if_pos]
    intro h0
    have : kv.1 ∈ ([] : List Key) ++ (d.filter fun kv => (firstMatch rules kv.1).isNone).map Prod.fst := by
      simp only [List.nil_append, List.mem_map, List.mem_filter]
      exact ⟨kv, ⟨hkv, by rw [hn]; rfl⟩, rfl⟩
    rw [h0] at this
    simp at this

/-! ### The T5 rules -/

/-- The value after conversion: only the step is converted. -/
def converted (conv : V → V) : Var → V → V
  | .step, x => conv x
  | _, x => x

/-- C49: every variable of a T5 checkpoint, whatever its tower, layer, sub-layer, slot and zero-filling of numbers, is converted to
the T5X leaf it stands for, with its value; a layer norm of a sub-layer that does not exist raises. -/
theorem C49_t5_names (conv : V → V) (wb wl : Nat) (v : Var) (x : V) :
    ∃ f, firstMatch (t5Rules conv) (v.name wb wl) = some f ∧
      f x = match meaning v with
        | some t => .ok (some t.path, converted conv v x)
        | none => .error .indexError := by
  have key : out conv (v.name wb wl) x = some (match meaning v with
        | some t => .ok (some t.path, converted conv v x)
        | none => .error .indexError) := by
    cases v with
    | step => exact names_step conv x wb wl
    | shared sl => exact names_shared conv x wb wl sl
    | emb t sl => exact names_emb conv x wb wl t sl
    | rel t b sl => exact names_rel conv x wb wl t b sl
    | attn t b l cross m sl => exact names_attn conv x wb wl t b l cross m sl
    | mlp t b l o num sl => exact names_mlp conv x wb wl t b l o num sl
    | ln t b l rms sl =>
      rw [names_ln]
      simp only [meaning]
      cases normAt t l <;> rfl
    | finalLn t rms sl => exact names_finalLn conv x wb wl t rms sl
    | logits d sl => exact names_logits conv x wb wl d sl
  unfold out at key
  cases hf : firstMatch (t5Rules conv) (v.name wb wl) with
  | none => rw [hf] at key; cases key
  | some f =>
    rw [hf] at key
    exact ⟨f, rfl, by simpa using key⟩

/-- C49: different leaves of the T5X state have different keys. -/
theorem C49_keys_distinct (t u : Target) (h : t.path = u.path) : t = u := target_inj h

theorem get_reverse_of_nodup (e : List (Key × V)) (h : (e.map Prod.fst).Nodup) (k : Key) (v : V) :
    PyDict.get e.reverse k = some v ↔ (k, v) ∈ e := by
  rw [PyDict.get_iff_mem]
  · simp
  · unfold PyDict.WF PyDict.keys
    rw [List.map_reverse]
    exact List.nodup_reverse.mpr h

/-- C49: nothing is lost.  If the variables of the checkpoint stand for pairwise different leaves, importing gives exactly these
leaves with their values. -/
theorem C49_t5_import (conv : V → V) (wb wl : Nat) (ckpt : List (Var × V)) (hm : ∀ e ∈ ckpt, (meaning e.1).isSome = true)
    (hd : (ckpt.map fun e => meaning e.1).Nodup) :
    ∃ new, apply (t5Rules conv) (ckpt.map fun e => (e.1.name wb wl, e.2)) = .ok new ∧
      ∀ k y, PyDict.get new k = some y ↔ ∃ v x t, (v, x) ∈ ckpt ∧ meaning v = some t ∧ k = t.path ∧ y = converted conv v x := by
  have htr : ∀ e ∈ ckpt, ∀ t, meaning e.1 = some t →
      translated (t5Rules conv) (e.1.name wb wl, e.2) = some (t.path, converted conv e.1 e.2) := by
    intro e he t ht
    obtain ⟨f, hf, hx⟩ := C49_t5_names conv wb wl e.1 e.2
    rw [ht] at hx
    simp only [translated, hf, hx]
  obtain ⟨new, h1, _, h2⟩ := C49_apply (t5Rules conv) (ckpt.map fun e => (e.1.name wb wl, e.2)) (by
    intro kv hkv
    obtain ⟨e, he, rfl⟩ := List.mem_map.mp hkv
    obtain ⟨t, ht⟩ := Option.isSome_iff_exists.mp (hm e he)
    obtain ⟨f, hf, hx⟩ := C49_t5_names conv wb wl e.1 e.2
    rw [ht] at hx
    exact ⟨f, _, hf, hx⟩)
  refine ⟨new, h1, ?_⟩
  intro k y
  rw [h2, get_reverse_of_nodup]
  · rw [List.mem_filterMap]
    constructor
    · rintro ⟨a, ha, hb⟩
      obtain ⟨e, he, rfl⟩ := List.mem_map.mp ha
      obtain ⟨t, ht⟩ := Option.isSome_iff_exists.mp (hm e he)
      rw [htr e he t ht] at hb
      simp only [Option.some.injEq, Prod.mk.injEq] at hb
      exact ⟨e.1, e.2, t, he, ht, hb.1.symm, hb.2.symm⟩
    · rintro ⟨v, x, t, he, ht, rfl, rfl⟩
      exact ⟨_, List.mem_map.mpr ⟨(v, x), he, rfl⟩, htr (v, x) he t ht⟩
  · clear h1 h2
    induction ckpt with
    | nil => simp
    | cons e ckpt ih =>
      obtain ⟨t, ht⟩ := Option.isSome_iff_exists.mp (hm e (by simp))
      rw [List.map_cons, List.filterMap_cons, htr e (by simp) t ht]
      dsimp only
      rw [List.map_cons, List.nodup_cons]
      rw [List.map_cons, List.nodup_cons] at hd
      refine ⟨?_, ih (fun e he => hm e (by simp [he])) hd.2 (fun e he => htr e (by simp [he]))⟩
      intro hmem
      obtain ⟨q, hq, hqe⟩ := List.mem_map.mp hmem
      obtain ⟨a, ha, hb⟩ := List.mem_filterMap.mp hq
      obtain ⟨e', he', rfl⟩ := List.mem_map.mp ha
      obtain ⟨t', ht'⟩ := Option.isSome_iff_exists.mp (hm e' (by simp [he']))
      rw [htr e' (by simp [he']) t' ht'] at hb
      simp only [Option.some.injEq] at hb
      rw [← hb] at hqe
      have := target_inj hqe
      rw [this] at ht'
      exact hd.1 (List.mem_map.mpr ⟨e', he', by rw [ht', ht]⟩)

/-- Two variables collide only where their names differ in ways the T5X tree has no place for: here the decoder of an
encoder-decoder model and the single tower of a decoder-only model in one checkpoint; the first value is lost. -/
theorem C49_collision : apply (t5Rules (V := Nat) id)
    [(Var.name 3 3 (.logits false .param), 1), (Var.name 3 3 (.logits true .param), 2)] =
    .ok [((Target.leaf .param .logits).path, 2)] := by rfl

/-! ### Optimizer slots that T5 checkpoints lack -/

theorem missing_get (ph : V) (d : List (Key × V)) : ∀ (ks : List Key) (up : List (Key × V)) (k : Key),
    PyDict.get (ks.foldl (missingFor ph d) up) k =
      if (∃ k0 ∈ ks, ∃ sl, stateLeaf k0 = some sl ∧ (k = sl ++ [s "m"] ∨
        (PyDict.has d (sl ++ [s "v"]) = true ∧ (k = sl ++ [s "v_row"] ∨ k = sl ++ [s "v_col"])) ∨
        (PyDict.has d (sl ++ [s "v"]) = false ∧ PyDict.has d (sl ++ [s "v_row"]) = true ∧ k = sl ++ [s "v"])))
      then some ph else PyDict.get up k := by
  classical
  intro ks
  induction ks with
  | nil => intro up k; rw [if_neg (by simp)]; rfl
  | cons k0 ks ih =>
    intro up k
    rw [List.foldl_cons, ih]
    by_cases hc : ∃ k0 ∈ ks, ∃ sl, stateLeaf k0 = some sl ∧ (k = sl ++ [s "m"] ∨
        (PyDict.has d (sl ++ [s "v"]) = true ∧ (k = sl ++ [s "v_row"] ∨ k = sl ++ [s "v_col"])) ∨
        (PyDict.has d (sl ++ [s "v"]) = false ∧ PyDict.has d (sl ++ [s "v_row"]) = true ∧ k = sl ++ [s "v"]))
    · rw [if_pos hc, if_pos]
      obtain ⟨k1, hk1, hrest⟩ := hc
      exact ⟨k1, by simp [hk1], hrest⟩
    · rw [if_neg hc]
      have hiff : (∃ k1 ∈ k0 :: ks, ∃ sl, stateLeaf k1 = some sl ∧ (k = sl ++ [s "m"] ∨
        (PyDict.has d (sl ++ [s "v"]) = true ∧ (k = sl ++ [s "v_row"] ∨ k = sl ++ [s "v_col"])) ∨
        (PyDict.has d (sl ++ [s "v"]) = false ∧ PyDict.has d (sl ++ [s "v_row"]) = true ∧ k = sl ++ [s "v"]))) ↔
        ∃ sl, stateLeaf k0 = some sl ∧ (k = sl ++ [s "m"] ∨
        (PyDict.has d (sl ++ [s "v"]) = true ∧ (k = sl ++ [s "v_row"] ∨ k = sl ++ [s "v_col"])) ∨
        (PyDict.has d (sl ++ [s "v"]) = false ∧ PyDict.has d (sl ++ [s "v_row"]) = true ∧ k = sl ++ [s "v"])) := by
        constructor
        · rintro ⟨k1, hk1, h⟩
          rcases List.mem_cons.mp hk1 with rfl | hm
          · exact h
          · exact absurd ⟨k1, hm, h⟩ hc
        · intro h; exact ⟨k0, by simp, h⟩
      rw [if_congr hiff rfl rfl]
      unfold missingFor
      cases hsl : stateLeaf k0 with
      | none => rw [if_neg (by simp)]
      | some sl =>
        simp only [Option.some.injEq, exists_eq_left']
        cases hv : PyDict.has d (sl ++ [s "v"]) with
        | true =>
          simp only [if_true, PyDict.get_set]
          by_cases h1 : sl ++ [s "v_col"] = k
          · rw [if_pos h1, if_pos (Or.inr (Or.inl ⟨trivial, Or.inr h1.symm⟩))]
          rw [if_neg h1]
          by_cases h2 : sl ++ [s "v_row"] = k
          · rw [if_pos h2, if_pos (Or.inr (Or.inl ⟨trivial, Or.inl h2.symm⟩))]
          rw [if_neg h2]
          by_cases h3 : sl ++ [s "m"] = k
          · rw [if_pos h3, if_pos (Or.inl h3.symm)]
          rw [if_neg h3, if_neg]
          rintro (h | ⟨_, h | h⟩ | ⟨h, _⟩)
          · exact h3 h.symm
          · exact h2 h.symm
          · exact h1 h.symm
          · cases h
        | false =>
          simp only [Bool.false_eq_true, if_false]
          cases hr : PyDict.has d (sl ++ [s "v_row"]) with
          | true =>
            simp only [if_true, PyDict.get_set]
            by_cases h1 : sl ++ [s "v"] = k
            · rw [if_pos h1, if_pos (Or.inr (Or.inr ⟨trivial, trivial, h1.symm⟩))]
            rw [if_neg h1]
            by_cases h3 : sl ++ [s "m"] = k
            · rw [if_pos h3, if_pos (Or.inl h3.symm)]
            rw [if_neg h3, if_neg]
            rintro (h | ⟨h, _⟩ | ⟨_, _, h⟩)
            · exact h3 h.symm
            · exact h
            · exact h1 h.symm
          | false =>
            simp only [Bool.false_eq_true, if_false, PyDict.get_set]
            by_cases h3 : sl ++ [s "m"] = k
            · rw [if_pos h3, if_pos (Or.inl h3.symm)]
            rw [if_neg h3, if_neg]
            rintro (h | ⟨h, _⟩ | ⟨_, h, _⟩)
            · exact h3 h.symm
            · exact h
            · exact h

theorem missing_wf (ph : V) (d : List (Key × V)) : ∀ (ks : List Key) (up : List (Key × V)), PyDict.WF up → PyDict.WF (ks.foldl (missingFor ph d) up) := by
  intro ks
  induction ks with
  | nil => intro up h; exact h
  | cons k ks ih =>
    intro up h
    rw [List.foldl_cons]
    apply ih
    unfold missingFor
    cases stateLeaf k with
    | none => exact h
    | some sl =>
      dsimp only
      split_ifs
      · exact PyDict.wf_set _ (PyDict.wf_set _ (PyDict.wf_set _ h _ _) _ _) _ _
      · exact PyDict.wf_set _ (PyDict.wf_set _ h _ _) _ _
      · exact PyDict.wf_set _ h _ _

/-- C49: what `_add_missing_param_states` adds to any imported dictionary: for every parameter a placeholder `m`; with an unfactored
second moment placeholders for the factored ones; with a row moment and no unfactored one a placeholder for the unfactored.  Every
other entry is unchanged. -/
theorem C49_missing_slots (ph : V) (d : List (Key × V)) (k : Key) :
    ((∃ k0 ∈ PyDict.keys d, ∃ sl, stateLeaf k0 = some sl ∧ (k = sl ++ [s "m"] ∨
        (PyDict.has d (sl ++ [s "v"]) = true ∧ (k = sl ++ [s "v_row"] ∨ k = sl ++ [s "v_col"])) ∨
        (PyDict.has d (sl ++ [s "v"]) = false ∧ PyDict.has d (sl ++ [s "v_row"]) = true ∧ k = sl ++ [s "v"]))) →
      PyDict.get (addMissing ph d) k = some ph) ∧
    (¬ (∃ k0 ∈ PyDict.keys d, ∃ sl, stateLeaf k0 = some sl ∧ (k = sl ++ [s "m"] ∨
        (PyDict.has d (sl ++ [s "v"]) = true ∧ (k = sl ++ [s "v_row"] ∨ k = sl ++ [s "v_col"])) ∨
        (PyDict.has d (sl ++ [s "v"]) = false ∧ PyDict.has d (sl ++ [s "v_row"]) = true ∧ k = sl ++ [s "v"]))) →
      PyDict.get (addMissing ph d) k = PyDict.get d k) := by
  have hwf := missing_wf ph d (PyDict.keys d) [] (by simp [PyDict.WF, PyDict.keys])
  have hg := missing_get ph d (PyDict.keys d) [] k
  unfold addMissing
  rw [PyDict.get_update _ _ hwf, hg]
  constructor
  · intro h; rw [if_pos h]; rfl
  · intro h; rw [if_neg h]; rfl

/-- C49: after the import every parameter that came with a second moment, unfactored or in both factors, has all four slots. -/
theorem C49_slots_complete (ph : V) (d : List (Key × V)) (p : Key) (hp : (s "target" :: p) ∈ PyDict.keys d)
    (hv : PyDict.has d (s "state" :: s "param_states" :: (p ++ [s "v"])) = true ∨
      (PyDict.has d (s "state" :: s "param_states" :: (p ++ [s "v_row"])) = true ∧
       PyDict.has d (s "state" :: s "param_states" :: (p ++ [s "v_col"])) = true)) :
    ∀ n ∈ [s "m", s "v", s "v_row", s "v_col"], PyDict.has (addMissing ph d) (s "state" :: s "param_states" :: (p ++ [n])) = true := by
  have hsl : stateLeaf (s "target" :: p) = some (s "state" :: s "param_states" :: p) := by
    have h := after_append (s "target") []
    rw [List.append_nil] at h
    simp only [stateLeaf, h, List.append_nil]
  have hput : ∀ n, ((s "state" :: s "param_states" :: (p ++ [n]) = (s "state" :: s "param_states" :: p) ++ [s "m"]) ∨
        (PyDict.has d ((s "state" :: s "param_states" :: p) ++ [s "v"]) = true ∧
          (s "state" :: s "param_states" :: (p ++ [n]) = (s "state" :: s "param_states" :: p) ++ [s "v_row"] ∨
           s "state" :: s "param_states" :: (p ++ [n]) = (s "state" :: s "param_states" :: p) ++ [s "v_col"])) ∨
        (PyDict.has d ((s "state" :: s "param_states" :: p) ++ [s "v"]) = false ∧
          PyDict.has d ((s "state" :: s "param_states" :: p) ++ [s "v_row"]) = true ∧
          s "state" :: s "param_states" :: (p ++ [n]) = (s "state" :: s "param_states" :: p) ++ [s "v"])) →
      PyDict.has (addMissing ph d) (s "state" :: s "param_states" :: (p ++ [n])) = true := by
    intro n hn
    unfold PyDict.has
    rw [(C49_missing_slots ph d _).1 ⟨_, hp, _, hsl, hn⟩]
    rfl
  have hkeep : ∀ n, PyDict.has d (s "state" :: s "param_states" :: (p ++ [n])) = true →
      PyDict.has (addMissing ph d) (s "state" :: s "param_states" :: (p ++ [n])) = true := by
    intro n hn
    by_cases hc : (∃ k0 ∈ PyDict.keys d, ∃ sl, stateLeaf k0 = some sl ∧ (s "state" :: s "param_states" :: (p ++ [n]) = sl ++ [s "m"] ∨
        (PyDict.has d (sl ++ [s "v"]) = true ∧ (s "state" :: s "param_states" :: (p ++ [n]) = sl ++ [s "v_row"] ∨
          s "state" :: s "param_states" :: (p ++ [n]) = sl ++ [s "v_col"])) ∨
        (PyDict.has d (sl ++ [s "v"]) = false ∧ PyDict.has d (sl ++ [s "v_row"]) = true ∧
          s "state" :: s "param_states" :: (p ++ [n]) = sl ++ [s "v"])))
    · unfold PyDict.has
      rw [(C49_missing_slots ph d _).1 hc]; rfl
    · unfold PyDict.has at hn ⊢
      rw [(C49_missing_slots ph d _).2 hc]; exact hn
  intro n hn
  simp only [List.mem_cons, List.not_mem_nil, or_false] at hn
  rcases hv with hv | ⟨hr, hcl⟩
  · rcases hn with rfl | rfl | rfl | rfl
    · exact hput _ (Or.inl rfl)
    · exact hkeep _ hv
    · exact hput _ (Or.inr (Or.inl ⟨hv, Or.inl rfl⟩))
    · exact hput _ (Or.inr (Or.inl ⟨hv, Or.inr rfl⟩))
  · rcases hn with rfl | rfl | rfl | rfl
    · exact hput _ (Or.inl rfl)
    · cases hv : PyDict.has d (s "state" :: s "param_states" :: (p ++ [s "v"])) with
      | true => exact hkeep _ hv
      | false => exact hput _ (Or.inr (Or.inr ⟨hv, hr, rfl⟩))
    · exact hkeep _ hr
    · exact hkeep _ hcl

/-! ### Relative position biases -/

theorem max_fold (ks : List Key) : ∀ m0, (ks.foldl (fun m k => match relLayer k with | some n => max m n | none => m) m0 = 0 ↔
    m0 = 0 ∧ ∀ k ∈ ks, ∀ n, relLayer k = some n → n = 0) := by
  induction ks with
  | nil => intro m0; simp
  | cons k ks ih =>
    intro m0
    rw [List.foldl_cons, ih]
    cases hk : relLayer k with
    | none =>
      dsimp only
      constructor
      · rintro ⟨h1, h2⟩
        refine ⟨h1, fun x hx n hn => ?_⟩
        rcases List.mem_cons.mp hx with rfl | hm
        · rw [hk] at hn; cases hn
        · exact h2 x hm n hn
      · rintro ⟨h1, h2⟩; exact ⟨h1, fun x hx => h2 x (by simp [hx])⟩
    | some l =>
      dsimp only
      constructor
      · rintro ⟨h1, h2⟩
        have h0 := Nat.max_eq_zero_iff.mp h1
        refine ⟨h0.1, fun x hx n hn => ?_⟩
        rcases List.mem_cons.mp hx with rfl | hm
        · rw [hk] at hn; cases hn; exact h0.2
        · exact h2 x hm n hn
      · rintro ⟨h1, h2⟩
        have := h2 k (by simp) l hk
        exact ⟨Nat.max_eq_zero_iff.mpr ⟨h1, this⟩, fun x hx => h2 x (by simp [hx])⟩

/-- The key with which a leaf ends up when relative position biases are shared by all layers. -/
def sharedPath : Param → Key
  | .rel e _ => [side e, s "relpos_bias", s "rel_embedding"]
  | p => p.path

theorem litNum_none (p c : Name) (h : p.isPrefixOf c = false) : litNum p c = none := by
  unfold litNum after
  rw [h]; rfl

theorem drop_skip (a b : Name) (t : Key) (h : litNum (s "layers_") a = none) :
    dropLayer (a :: b :: t) = a :: dropLayer (b :: t) ∧ relLayer (a :: b :: t) = relLayer (b :: t) := by
  constructor
  · simp only [dropLayer, h]; simp
  · simp only [relLayer, h]

theorem drop_skip' (a b : Name) (t : Key) (h : b ≠ s "relpos_bias") :
    dropLayer (a :: b :: t) = a :: dropLayer (b :: t) ∧ relLayer (a :: b :: t) = relLayer (b :: t) := by
  constructor
  · simp only [dropLayer, h]; simp
  · simp only [relLayer]
    cases litNum (s "layers_") a with
    | none => rfl
    | some n => exact if_neg h

theorem drop_one (a : Name) : dropLayer [a] = [a] ∧ relLayer [a] = none := ⟨rfl, rfl⟩

theorem drop_found (n : Nat) (t : Key) :
    dropLayer (layers n :: s "relpos_bias" :: t) = s "relpos_bias" :: dropLayer t ∧ relLayer (layers n :: s "relpos_bias" :: t) = some n := by
  have h := litNum_dec (s "layers_") n
  constructor
  · simp only [dropLayer, layers, h]; simp
  · simp only [relLayer, layers, h]; simp

theorem noLayer_io (o : Bool) (num : Option Nat) : litNum (s "layers_") (ioName o num) = none := by
  cases o <;> cases num <;> exact litNum_none _ _ rfl

/-- Skipping the tail of a path: no component names a layer. -/
theorem drop_tail : ∀ l : Key, (∀ c ∈ l.dropLast, litNum (s "layers_") c = none) → dropLayer l = l ∧ relLayer l = none := by
  intro l
  induction l with
  | nil => intro _; exact ⟨rfl, rfl⟩
  | cons a l ih =>
    intro h
    cases l with
    | nil => exact drop_one a
    | cons b t =>
      obtain ⟨h1, h2⟩ := drop_skip a b t (h a (by simp))
      obtain ⟨h3, h4⟩ := ih (fun c hc => h c (by simp only [List.dropLast_cons_of_ne_nil (List.cons_ne_nil b t)]; exact List.mem_cons_of_mem _ hc))
      rw [h1, h2, h3]; exact ⟨rfl, h4⟩

def pre : Option Name → Key
  | none => [s "target"]
  | some _ => [s "state", s "param_states"]

def suf : Option Name → Key
  | none => []
  | some n => [n]

theorem leafKey_eq (o : Option Name) (q : Key) : leafKey o q = pre o ++ (q ++ suf o) := by
  cases o <;> simp [leafKey, pre, suf]

theorem drop_head (o : Option Name) (a : Name) (t : Key) :
    dropLayer (leafKey o (a :: t)) = pre o ++ dropLayer (a :: (t ++ suf o)) ∧ relLayer (leafKey o (a :: t)) = relLayer (a :: (t ++ suf o)) := by
  cases o with
  | none =>
    obtain ⟨h1, h2⟩ := drop_skip (s "target") a t (litNum_none _ _ rfl)
    simp only [leafKey, pre, suf, List.append_nil]
    rw [h1, h2]; exact ⟨rfl, rfl⟩
  | some n =>
    obtain ⟨h1, h2⟩ := drop_skip (s "state") (s "param_states") (a :: (t ++ [n])) (litNum_none _ _ rfl)
    obtain ⟨h3, h4⟩ := drop_skip (s "param_states") a (t ++ [n]) (litNum_none _ _ rfl)
    simp only [leafKey, pre, suf, List.cons_append]
    rw [h1, h2, h3, h4]; exact ⟨rfl, rfl⟩

theorem tail_ok (o : Option Name) (q : Key) (hc : ∀ c ∈ q, litNum (s "layers_") c = none) :
    dropLayer (q ++ suf o) = q ++ suf o ∧ relLayer (q ++ suf o) = none := by
  apply drop_tail
  intro c hm
  cases o with
  | none => simp only [suf, List.append_nil] at hm; exact hc c (List.dropLast_subset _ hm)
  | some n => simp only [suf, List.dropLast_concat] at hm; exact hc c hm

theorem rel_flat (o : Option Name) (a : Name) (t : Key) (hc : ∀ c ∈ a :: t, litNum (s "layers_") c = none) :
    relLayer (leafKey o (a :: t)) = none ∧ dropLayer (leafKey o (a :: t)) = leafKey o (a :: t) := by
  obtain ⟨h1, h2⟩ := drop_head o a t
  obtain ⟨h3, h4⟩ := tail_ok o (a :: t) hc
  rw [List.cons_append] at h3 h4
  rw [h1, h2, h3, leafKey_eq]
  exact ⟨h4, rfl⟩

theorem noLayer_side (e : Bool) : litNum (s "layers_") (side e) = none := by cases e <;> exact litNum_none _ _ rfl

theorem rel_layered (o : Option Name) (e : Bool) (n : Nat) (b : Name) (t : Key) (hb : b ≠ s "relpos_bias")
    (hc : ∀ c ∈ b :: t, litNum (s "layers_") c = none) :
    relLayer (leafKey o (side e :: layers n :: b :: t)) = none ∧
    dropLayer (leafKey o (side e :: layers n :: b :: t)) = leafKey o (side e :: layers n :: b :: t) := by
  obtain ⟨h1, h2⟩ := drop_head o (side e) (layers n :: b :: t)
  obtain ⟨h3, h4⟩ := tail_ok o (b :: t) hc
  rw [List.cons_append] at h3 h4
  obtain ⟨h5, h6⟩ := drop_skip (side e) (layers n) (b :: (t ++ suf o)) (noLayer_side e)
  obtain ⟨h7, h8⟩ := drop_skip' (layers n) b (t ++ suf o) hb
  simp only [List.cons_append] at h1 h2
  rw [h1, h2, h5, h6, h7, h8, h3, leafKey_eq]
  exact ⟨h4, rfl⟩

theorem rel_bias (o : Option Name) (e : Bool) (n : Nat) (t : Key) (hc : ∀ c ∈ t, litNum (s "layers_") c = none) :
    relLayer (leafKey o (side e :: layers n :: s "relpos_bias" :: t)) = some n ∧
    dropLayer (leafKey o (side e :: layers n :: s "relpos_bias" :: t)) = leafKey o (side e :: s "relpos_bias" :: t) := by
  obtain ⟨h1, h2⟩ := drop_head o (side e) (layers n :: s "relpos_bias" :: t)
  obtain ⟨h3, h4⟩ := tail_ok o t hc
  obtain ⟨h5, h6⟩ := drop_skip (side e) (layers n) (s "relpos_bias" :: (t ++ suf o)) (noLayer_side e)
  obtain ⟨h7, h8⟩ := drop_found n (t ++ suf o)
  simp only [List.cons_append] at h1 h2
  rw [h1, h2, h5, h6, h7, h8, h3, leafKey_eq]
  exact ⟨rfl, rfl⟩

theorem rel_of_leaf (o : Option Name) (p : Param) : relLayer (leafKey o p.path) = (match p with | .rel _ n => some n | _ => none) ∧
    dropLayer (leafKey o p.path) = leafKey o (sharedPath p) := by
  have lit : ∀ c : Name, (s "layers_").isPrefixOf c = false → litNum (s "layers_") c = none := litNum_none _
  cases p with
  | shared =>
    refine rel_flat o _ _ ?_
    intro c hc
    simp only [List.mem_cons, List.not_mem_nil, or_false] at hc
    rcases hc with rfl | rfl <;> exact lit _ rfl
  | emb e =>
    refine rel_flat o _ _ ?_
    intro c hc
    simp only [List.mem_cons, List.not_mem_nil, or_false] at hc
    rcases hc with rfl | rfl | rfl
    · exact noLayer_side e
    · exact lit _ rfl
    · exact lit _ rfl
  | rel e n =>
    refine rel_bias o e n _ ?_
    intro c hc
    simp only [List.mem_cons, List.not_mem_nil, or_false] at hc
    rcases hc with rfl
    exact lit _ rfl
  | attn e n k m =>
    refine rel_layered o e n _ _ (by cases k <;> decide) ?_
    intro c hc
    simp only [List.mem_cons, List.not_mem_nil, or_false] at hc
    rcases hc with rfl | rfl | rfl
    · cases k <;> exact lit _ rfl
    · cases m <;> exact lit _ rfl
    · exact lit _ rfl
  | mlp e n o' num =>
    refine rel_layered o e n _ _ (by decide) ?_
    intro c hc
    simp only [List.mem_cons, List.not_mem_nil, or_false] at hc
    rcases hc with rfl | rfl | rfl
    · exact lit _ rfl
    · exact noLayer_io o' num
    · exact lit _ rfl
  | ln e n k =>
    refine rel_layered o e n _ _ (by cases k <;> decide) ?_
    intro c hc
    simp only [List.mem_cons, List.not_mem_nil, or_false] at hc
    rcases hc with rfl | rfl
    · cases k <;> exact lit _ rfl
    · exact lit _ rfl
  | finalLn e =>
    refine rel_flat o _ _ ?_
    intro c hc
    simp only [List.mem_cons, List.not_mem_nil, or_false] at hc
    rcases hc with rfl | rfl | rfl
    · exact noLayer_side e
    · cases e <;> exact lit _ rfl
    · exact lit _ rfl
  | logits =>
    refine rel_flat o _ _ ?_
    intro c hc
    simp only [List.mem_cons, List.not_mem_nil, or_false] at hc
    rcases hc with rfl | rfl | rfl <;> exact lit _ rfl

theorem shared_inj {p q : Param} (hp : ∀ e n, p = .rel e n → n = 0) (hq : ∀ e n, q = .rel e n → n = 0) (h : sharedPath p = sharedPath q) : p = q := by
  have aux : ∀ (e : Bool) (q : Param), (∀ e n, q ≠ .rel e n) → sharedPath (.rel e 0) ≠ q.path := by
    intro e q hq h
    have len := congrArg List.length h
    rw [path_length] at len
    cases q with
    | rel e' n => exact hq _ _ rfl
    | emb e' =>
      simp only [sharedPath, Param.path, List.cons.injEq] at h
      exact absurd h.2.2.1 (by decide)
    | finalLn e' =>
      simp only [sharedPath, Param.path, List.cons.injEq] at h
      exact absurd h.2.2.1 (by decide)
    | logits =>
      simp only [sharedPath, Param.path, List.cons.injEq] at h
      exact absurd h.2.2.1 (by decide)
    | _ => simp [sharedPath, plen] at len
  by_cases hpr : ∃ e n, p = .rel e n
  · obtain ⟨e, n, rfl⟩ := hpr
    have := hp e n rfl
    subst this
    by_cases hqr : ∃ e n, q = .rel e n
    · obtain ⟨e', n', rfl⟩ := hqr
      have := hq e' n' rfl
      subst this
      simp only [sharedPath, List.cons.injEq, and_true] at h
      rw [side_inj h]
    · push Not at hqr
      have hs : sharedPath q = q.path := by cases q <;> first | rfl | exact absurd rfl (hqr _ _)
      rw [hs] at h
      exact absurd h (aux e q hqr)
  · push Not at hpr
    have hs : sharedPath p = p.path := by cases p <;> first | rfl | exact absurd rfl (hpr _ _)
    by_cases hqr : ∃ e n, q = .rel e n
    · obtain ⟨e', n', rfl⟩ := hqr
      have := hq e' n' rfl
      subst this
      rw [hs] at h
      exact absurd h.symm (aux e' p hpr)
    · push Not at hqr
      have hs' : sharedPath q = q.path := by cases q <;> first | rfl | exact absurd rfl (hqr _ _)
      rw [hs, hs'] at h
      exact path_inj h

theorem foldl_set_eq (f : Key → Key) (d : List (Key × V)) :
    d.foldl (fun acc kv => PyDict.set acc (f kv.1) kv.2) [] = PyDict.update [] (d.map fun kv => (f kv.1, kv.2)) := by
  unfold PyDict.update
  rw [List.foldl_map]

/-- C49: relative position biases.  For a dictionary whose keys are the step and (slots of) T5X parameters: if no layer other than
0 has a bias, the layer scope is removed from the bias keys and no entry is lost or changed; otherwise nothing changes. -/
theorem C49_relpos (d : List (Key × V)) (hd : PyDict.WF d)
    (hk : ∀ k ∈ PyDict.keys d, k = Target.step.path ∨ ∃ o p, k = leafKey o (Param.path p)) :
    ((∃ o e n, leafKey o (Param.path (.rel e (n + 1))) ∈ PyDict.keys d) → correctRel d = d) ∧
    ((∀ o e n, leafKey o (Param.path (.rel e n)) ∈ PyDict.keys d → n = 0) →
      (∀ o p v, PyDict.get d (leafKey o (Param.path p)) = some v → PyDict.get (correctRel d) (leafKey o (sharedPath p)) = some v) ∧
      (∀ v, PyDict.get d Target.step.path = some v → PyDict.get (correctRel d) Target.step.path = some v) ∧
      (correctRel d).length = d.length) := by
  have hstep : relLayer Target.step.path = none ∧ dropLayer Target.step.path = Target.step.path := by
    obtain ⟨h1, h2⟩ := drop_tail Target.step.path (by
      intro c hc
      simp only [Target.path, List.dropLast, List.mem_cons, List.not_mem_nil, or_false] at hc
      rw [hc]; exact litNum_none _ _ rfl)
    exact ⟨h2, h1⟩
  constructor
  · rintro ⟨o, e, n, hm⟩
    unfold correctRel
    rw [if_neg]
    intro h0
    have := ((max_fold _ 0).1 h0).2 _ hm (n + 1) (rel_of_leaf o _).1
    omega
  · intro hall
    have h0 : ∀ k ∈ PyDict.keys d, ∀ n, relLayer k = some n → n = 0 := by
      intro k hkm n hn
      rcases hk k hkm with rfl | ⟨o, p, rfl⟩
      · rw [hstep.1] at hn; cases hn
      · rw [(rel_of_leaf o p).1] at hn
        cases p <;> simp only [Option.some.injEq, reduceCtorEq] at hn
        subst hn
        exact hall _ _ _ hkm
    have hc : correctRel d = PyDict.update [] (d.map fun kv => (dropLayer kv.1, kv.2)) := by
      rw [← foldl_set_eq]
      exact if_pos ((max_fold _ 0).2 ⟨rfl, h0⟩)
    have hinj : ∀ k ∈ PyDict.keys d, ∀ k' ∈ PyDict.keys d, dropLayer k = dropLayer k' → k = k' := by
      have leaf0 : ∀ o p, leafKey o (Param.path p) ∈ PyDict.keys d → ∀ e n, p = .rel e n → n = 0 := by
        rintro o p hm e n rfl
        exact hall o e n hm
      have stepne : ∀ o p, Target.step.path ≠ leafKey o (sharedPath p) := by
        intro o p h
        cases o with
        | none =>
          simp only [leafKey, Target.path, List.cons.injEq] at h
          exact absurd h.1 (by decide)
        | some n =>
          simp only [leafKey, Target.path, List.cons.injEq] at h
          exact absurd h.2.1 (by decide)
      intro k hk1 k' hk2 he
      rcases hk k hk1 with rfl | ⟨o, p, rfl⟩
      · rcases hk k' hk2 with rfl | ⟨o', p', rfl⟩
        · rfl
        · rw [hstep.2, (rel_of_leaf o' p').2] at he
          exact absurd he (stepne _ _)
      · rcases hk k' hk2 with rfl | ⟨o', p', rfl⟩
        · rw [hstep.2, (rel_of_leaf o p).2] at he
          exact absurd he.symm (stepne _ _)
        · rw [(rel_of_leaf o p).2, (rel_of_leaf o' p').2] at he
          obtain ⟨h1, h2⟩ := leafKey_inj he
          rw [h1, shared_inj (leaf0 _ _ hk1) (leaf0 _ _ hk2) h2]
    have hnd : ((d.map fun kv => (dropLayer kv.1, kv.2)).map Prod.fst).Nodup := by
      rw [List.map_map]
      have : (Prod.fst ∘ fun kv : Key × V => (dropLayer kv.1, kv.2)) = dropLayer ∘ Prod.fst := rfl
      rw [this, ← List.map_map]
      exact List.Nodup.map_on (fun x hx y hy h => hinj x hx y hy h) hd
    have hget : ∀ k v, PyDict.get d k = some v → PyDict.get (correctRel d) (dropLayer k) = some v := by
      intro k v h
      rw [hc, (update_wf_get _).2, get_reverse_of_nodup _ hnd]
      exact List.mem_map.mpr ⟨(k, v), PyDict.mem_of_get _ _ _ h, rfl⟩
    refine ⟨?_, ?_, ?_⟩
    · intro o p v h
      rw [← (rel_of_leaf o p).2]
      exact hget _ _ h
    · intro v h
      have := hget _ _ h
      rw [hstep.2] at this
      exact this
    · rw [hc]
      have hupd : ∀ (e acc : List (Key × V)), ((acc ++ e).map Prod.fst).Nodup → PyDict.update acc e = acc ++ e := by
        intro e
        induction e with
        | nil => intro acc _; simp [PyDict.update]
        | cons x e ih =>
          intro acc hn
          have hx : x.1 ∉ PyDict.keys acc := by
            intro hm
            rw [List.map_append, List.nodup_append] at hn
            exact hn.2.2 x.1 hm x.1 (by simp) rfl
          have : PyDict.update acc (x :: e) = PyDict.update (PyDict.set acc x.1 x.2) e := rfl
          rw [this, PyDict.set_append_of_not_mem _ _ _ hx, ih _ (by simpa using hn)]
          simp
      rw [hupd _ [] (by simpa using hnd)]
      simp

/-! ### Into the state dict -/

theorem check_ok (shape : V → List Nat) (shapes : List (Key × List Nat)) : ∀ d : List (Key × V),
    updateStateDict.check shape shapes d = .ok () ↔ ∀ kv ∈ d, PyDict.get shapes kv.1 = some (shape kv.2) := by
  intro d
  induction d with
  | nil => simp [updateStateDict.check]
  | cons kv d ih =>
    obtain ⟨k, v⟩ := kv
    simp only [updateStateDict.check, List.mem_cons, forall_eq_or_imp]
    cases hg : PyDict.get shapes k with
    | none => simp
    | some sh =>
      dsimp only
      split_ifs with h
      · simp only [reduceCtorEq, Option.some.injEq, false_iff]
        rintro ⟨h1, _⟩
        exact h h1
      · rw [ih]
        simp [not_not.mp h]

/-- C49: strictly, the import succeeds exactly if every imported variable exists in the state dict with the same shape, and then the
new state is what was imported; not strictly, variables unknown to the state dict are left out first. -/
theorem C49_state_dict (shape : V → List Nat) (shapes : List (Key × List Nat)) (d r : List (Key × V)) :
    (updateStateDict shape shapes true d = .ok r ↔ r = d ∧ ∀ kv ∈ d, PyDict.get shapes kv.1 = some (shape kv.2)) ∧
    (updateStateDict shape shapes false d = .ok r ↔ r = d.filter (fun kv => PyDict.has shapes kv.1) ∧
      ∀ kv ∈ d, PyDict.has shapes kv.1 = true → PyDict.get shapes kv.1 = some (shape kv.2)) := by
  have gen : ∀ e : List (Key × V), ((match updateStateDict.check shape shapes e with
      | .error x => .error x
      | .ok _ => .ok e : Except Err (List (Key × V))) = .ok r) ↔ r = e ∧ ∀ kv ∈ e, PyDict.get shapes kv.1 = some (shape kv.2) := by
    intro e
    rw [← check_ok]
    cases hce : updateStateDict.check shape shapes e with
    | error x => simp
    | ok u => simp [eq_comm]
  constructor
  · unfold updateStateDict
    simp only [if_true]
    exact gen d
  · unfold updateStateDict
    simp only [Bool.false_eq_true, if_false]
    refine (gen _).trans ?_
    simp only [List.mem_filter, and_imp]

/-- C49, refuted half: contrary to the documentation ("if the optimizer has variables not in t5_data, this function will still
fail"), a state variable that the checkpoint lacks is not noticed, strict or not: the import succeeds and the result has no such
variable. -/
theorem C49_missing_unnoticed : ∃ (shapes : List (Key × List Nat)) (ckpt : List (Key × Nat)) (k : Key), PyDict.has shapes k = true ∧
    ∀ strict, ∃ r, restoreT5 (t5Rules id) 0 (fun _ => [1]) shapes strict ckpt = .ok r ∧ PyDict.has r k = false :=
  ⟨[([s "state", s "step"], [1]), ([s "target", s "w"], [1])], [([s "global_step"], 7)], [s "target", s "w"], by decide,
    fun strict => ⟨[([s "state", s "step"], 7)], by cases strict <;> rfl, by decide⟩⟩

/-! ### Concrete cases -/

example : (Var.name 3 3 (.attn .decoder 11 1 true .q .vRow)).map String.ofList =
    ["decoder", "block_011", "layer_001", "EncDecAttention", "q_slot_vr"] := by decide
example : (Target.leaf .vRow (.attn false 11 .cross .q)).path.map String.ofList =
    ["state", "param_states", "decoder", "layers_11", "encoder_decoder_attention", "query", "kernel", "v_row"] := by decide
/-- A checkpoint that meets the hypotheses of `C49_t5_import`. -/
example : let ckpt : List (Var × Nat) := [(.step, 5), (.shared .param, 1), (.shared .v, 2), (.rel .encoder 0 .param, 3), (.ln .decoder 0 2 false .param, 4)]
    (∀ e ∈ ckpt, (meaning e.1).isSome = true) ∧ (ckpt.map fun e => meaning e.1).Nodup := by decide
/-- The slots that are added. -/
example : (addMissing 0 [([s "target", s "w"], 1), ([s "state", s "param_states", s "w", s "v"], 2)]).map (fun kv => kv.1.getLast?) =
    [some (s "w"), some (s "v"), some (s "m"), some (s "v_row"), some (s "v_col")] := by decide
example : correctRel [(leafKey none (Param.path (.rel true 0)), 1)] = [(leafKey none (sharedPath (.rel true 0)), 1)] := by decide
example : correctRel [(leafKey none (Param.path (.rel true 0)), 1), (leafKey none (Param.path (.rel true 1)), 2)] =
    [(leafKey none (Param.path (.rel true 0)), 1), (leafKey none (Param.path (.rel true 1)), 2)] := by decide
/-- An unknown variable. -/
example : firstMatch (t5Rules (V := Nat) id) [s "foo"] = none := by rfl

end Verif.Importer
