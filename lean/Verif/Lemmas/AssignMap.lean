import Verif.Lemmas.StateDict
import Mathlib.Data.List.Perm.Subperm
/-
Helper lemmas for `apply_assignment_map`.
-/
namespace Verif.StateDict
open Verif Spec

variable {β : Type}

/-- The checkpoint key that `k` is read from, if a rule says so. -/
def src (rules : List Rule) (k : Key) : Option Key :=
  (firstMatch rules k).bind fun r => r.expand.map fun f => f k

/-- `k` matches a rule with replacement `None`. -/
def skips (rules : List Rule) (k : Key) : Prop := ∃ r, firstMatch rules k = some r ∧ r.expand = none

theorem assignedFrom_iff (opt : List Key) (rules : List Rule) (k old : Key) :
    AssignedFrom opt rules k old ↔ k ∈ opt ∧ src rules k = some old := by
  unfold AssignedFrom src
  constructor
  · rintro ⟨h, r, f, h1, h2, h3⟩
    exact ⟨h, by simp [h1, h2, h3]⟩
  · rintro ⟨h, h1⟩
    refine ⟨h, ?_⟩
    cases hm : firstMatch rules k with
    | none => simp [hm] at h1
    | some r =>
      cases he : r.expand with
      | none => simp [hm, he] at h1
      | some f => exact ⟨r, f, rfl, he, by simpa [hm, he] using h1⟩

def mapBody (ckpt : List (Key × β)) (r : Rule) (k : Key) (st : MapSt β) : Except MapErr (MapSt β) :=
  match r.expand with
  | none => .ok { st with skipped := k :: st.skipped, used := addUsed st.used r.pattern }
  | some f =>
    match PyDict.get ckpt (f k) with
    | none => .error .missing
    | some v => .ok { st with
        used := addUsed st.used r.pattern
        unmapped := PyDict.pop st.unmapped (f k)
        result := PyDict.set st.result k v }

theorem mapKey_eq (ckpt : List (Key × β)) (rules : List Rule) (k : Key) (st : MapSt β) :
    mapKey ckpt rules k st = match firstMatch rules k with
      | none => .ok st
      | some r => mapBody ckpt r k st := by
  induction rules with
  | nil => rfl
  | cons r rs ih =>
    unfold mapKey firstMatch
    rw [List.find?_cons]
    by_cases h : r.fullmatch k = true
    · simp only [h, if_true]; rfl
    · simp only [h, if_false]
      exact ih

theorem mem_addUsed (u : List Key) (p q : Key) : q ∈ addUsed u p ↔ q ∈ u ∨ q = p := by
  unfold addUsed
  split_ifs with h
  · constructor
    · exact Or.inl
    · rintro (h' | rfl)
      · exact h'
      · exact h
  · simp

theorem nodup_addUsed (u : List Key) (p : Key) (h : u.Nodup) : (addUsed u p).Nodup := by
  unfold addUsed
  split_ifs with h'
  · exact h
  · rw [List.nodup_append]
    refine ⟨h, by simp, ?_⟩
    intro a ha b hb
    simp at hb; subst hb
    rintro rfl; exact h' ha

structure MapInv (ckpt : List (Key × β)) (rules : List Rule) (done : List Key) (st : MapSt β) : Prop where
  res : ∀ k, PyDict.get st.result k = if k ∈ done then (src rules k).bind (PyDict.get ckpt) else none
  unm : ∀ o, PyDict.get st.unmapped o = if ∃ k ∈ done, src rules k = some o then none else PyDict.get ckpt o
  skp : ∀ k, k ∈ st.skipped ↔ k ∈ done ∧ skips rules k
  usd : ∀ p, p ∈ st.used ↔ ∃ k ∈ done, ∃ r, firstMatch rules k = some r ∧ r.pattern = p
  und : st.used.Nodup
  wfu : PyDict.WF st.unmapped
  wfr : PyDict.WF st.result
  present : ∀ k ∈ done, ∀ o, src rules k = some o → PyDict.has ckpt o = true

theorem mapInv_step (ckpt : List (Key × β)) (rules : List Rule) (done : List Key) (st : MapSt β)
    (k : Key) (h : MapInv ckpt rules done st) (hk : k ∉ done) :
    (∃ st', mapKey ckpt rules k st = .ok st' ∧ MapInv ckpt rules (k :: done) st') ∨
    (mapKey ckpt rules k st = .error .missing ∧ ∃ o, src rules k = some o ∧ PyDict.get ckpt o = none) := by
  rw [mapKey_eq]
  cases hm : firstMatch rules k with
  | none =>
    have hs : src rules k = none := by simp [src, hm]
    left
    refine ⟨st, rfl, ?_, ?_, ?_, ?_, h.und, h.wfu, h.wfr, ?_⟩
    · intro k'
      rw [h.res]
      by_cases hk' : k' = k
      · subst hk'; simp [hk, hs]
      · simp [hk']
    · intro o; rw [h.unm]; simp [hs]
    · intro k'; rw [h.skp]
      constructor
      · rintro ⟨a, b⟩; exact ⟨by simp [a], b⟩
      · rintro ⟨a, b⟩
        rcases List.mem_cons.1 a with rfl | a
        · obtain ⟨r, h1, _⟩ := b; rw [hm] at h1; cases h1
        · exact ⟨a, b⟩
    · intro p; rw [h.usd]; simp [hm]
    · intro k' hk' o ho
      rcases List.mem_cons.1 hk' with rfl | hk'
      · rw [hs] at ho; cases ho
      · exact h.present k' hk' o ho
  | some r =>
    simp only [mapBody]
    cases he : r.expand with
    | none =>
      have hs : src rules k = none := by simp [src, hm, he]
      left
      refine ⟨_, rfl, ?_, ?_, ?_, ?_, nodup_addUsed _ _ h.und, h.wfu, h.wfr, ?_⟩
      · intro k'
        simp only
        rw [h.res]
        by_cases hk' : k' = k
        · subst hk'; simp [hk, hs]
        · simp [hk']
      · intro o; simp only; rw [h.unm]; simp [hs]
      · intro k'
        simp only [List.mem_cons, h.skp]
        constructor
        · rintro (rfl | ⟨a, b⟩)
          · exact ⟨Or.inl rfl, r, hm, he⟩
          · exact ⟨Or.inr a, b⟩
        · rintro ⟨rfl | a, b⟩
          · exact Or.inl rfl
          · exact Or.inr ⟨a, b⟩
      · intro p
        simp only [mem_addUsed, h.usd, List.mem_cons, exists_eq_or_imp, hm, Option.some.injEq,
          exists_eq_left']
        constructor
        · rintro (a | rfl)
          · exact Or.inr a
          · exact Or.inl rfl
        · rintro (rfl | a)
          · exact Or.inr rfl
          · exact Or.inl a
      · intro k' hk' o ho
        rcases List.mem_cons.1 hk' with rfl | hk'
        · rw [hs] at ho; cases ho
        · exact h.present k' hk' o ho
    | some f =>
      have hs : src rules k = some (f k) := by simp [src, hm, he]
      simp only
      cases hg : PyDict.get ckpt (f k) with
      | none => exact Or.inr ⟨rfl, f k, hs, hg⟩
      | some v =>
        left
        refine ⟨_, rfl, ?_, ?_, ?_, ?_, nodup_addUsed _ _ h.und, PyDict.wf_pop _ h.wfu _, PyDict.wf_set _ h.wfr _ _, ?_⟩
        · intro k'
          simp only [PyDict.get_set]
          rw [h.res]
          by_cases hk' : k = k'
          · subst hk'; simp [hs, hg]
          · have : ¬ k' = k := fun h => hk' h.symm
            simp [hk', this]
        · intro o
          simp only [PyDict.get_pop]
          rw [h.unm]
          by_cases ho : f k = o
          · subst ho; simp [hs]
          · simp [ho, hs]
        · intro k'
          simp only [List.mem_cons, h.skp]
          constructor
          · rintro ⟨a, b⟩; exact ⟨Or.inr a, b⟩
          · rintro ⟨rfl | a, b⟩
            · obtain ⟨r', h1, h2⟩ := b
              rw [hm] at h1; cases h1; rw [he] at h2; cases h2
            · exact ⟨a, b⟩
        · intro p
          simp only [mem_addUsed, h.usd, List.mem_cons, exists_eq_or_imp, hm, Option.some.injEq,
            exists_eq_left']
          constructor
          · rintro (a | rfl)
            · exact Or.inr a
            · exact Or.inl rfl
          · rintro (rfl | a)
            · exact Or.inr rfl
            · exact Or.inl a
        · intro k' hk' o ho
          rcases List.mem_cons.1 hk' with rfl | hk'
          · rw [hs] at ho; cases ho; simp [PyDict.has, hg]
          · exact h.present k' hk' o ho

theorem mapKeys_inv (ckpt : List (Key × β)) (rules : List Rule) (ks : List Key) :
    ∀ (done : List Key) (st : MapSt β), MapInv ckpt rules done st → (∀ k ∈ ks, k ∉ done) → ks.Nodup →
    (∃ st', mapKeys ckpt rules ks st = .ok st' ∧ MapInv ckpt rules (ks.reverse ++ done) st') ∨
    (mapKeys ckpt rules ks st = .error .missing ∧
      ∃ k ∈ ks, ∃ o, src rules k = some o ∧ PyDict.get ckpt o = none) := by
  induction ks with
  | nil => intro done st h _ _; exact Or.inl ⟨st, rfl, by simpa using h⟩
  | cons k ks ih =>
    intro done st h hnd hn
    rw [List.nodup_cons] at hn
    unfold mapKeys
    rcases mapInv_step ckpt rules done st k h (hnd k (by simp)) with ⟨st', h1, h2⟩ | ⟨h1, o, h2⟩
    · rw [h1]
      simp only
      rcases ih (k :: done) st' h2 (by
        intro k' hk'
        simp only [List.mem_cons, not_or]
        exact ⟨fun h => hn.1 (h ▸ hk'), hnd k' (by simp [hk'])⟩) hn.2 with ⟨st2, g1, g2⟩ | ⟨g1, k', hk', g2⟩
      · exact Or.inl ⟨st2, g1, by simpa using g2⟩
      · exact Or.inr ⟨g1, k', by simp [hk'], g2⟩
    · rw [h1]
      exact Or.inr ⟨rfl, k, by simp, o, h2⟩

theorem mapInv_init (ckpt : List (Key × β)) (rules : List Rule) (hc : PyDict.WF ckpt) :
    MapInv ckpt rules [] { unmapped := ckpt } := by
  refine ⟨?_, ?_, ?_, ?_, ?_, hc, ?_, ?_⟩ <;> simp [PyDict.get, PyDict.WF, PyDict.keys]

theorem get_foldl_set_if (l : List (Key × β)) (hl : PyDict.WF l) (skipped : List Key) :
    ∀ (r : List (Key × β)) (k : Key),
    PyDict.get (l.foldl (fun r kv => if kv.1 ∈ skipped then r else PyDict.set r kv.1 kv.2) r) k =
      if k ∈ skipped then PyDict.get r k else (PyDict.get l k).or (PyDict.get r k) := by
  induction l with
  | nil => intro r k; simp [PyDict.get]
  | cons e l ih =>
    obtain ⟨a, b⟩ := e
    intro r k
    simp only [PyDict.WF, PyDict.keys, List.map_cons, List.nodup_cons] at hl
    rw [List.foldl_cons, ih hl.2]
    have hnone : PyDict.get l a = none := by rw [PyDict.get_eq_none_iff]; exact hl.1
    by_cases hk : k ∈ skipped
    · rw [if_pos hk, if_pos hk]
      by_cases ha : a ∈ skipped
      · rw [if_pos ha]
      · rw [if_neg ha, PyDict.get_set, if_neg]
        rintro rfl; exact ha hk
    · rw [if_neg hk, if_neg hk]
      by_cases ha : a ∈ skipped
      · rw [if_pos ha]
        have : ¬ a = k := by rintro rfl; exact hk ha
        simp [PyDict.get, this]
      · rw [if_neg ha, PyDict.get_set]
        by_cases hak : a = k
        · subst hak; simp [PyDict.get, hnone]
        · simp [PyDict.get, hak]

theorem get_foldl_copy (ckpt : List (Key × β)) (skipped : List Key) (l : List Key) :
    ∀ (r : List (Key × β)) (k : Key), (∀ x ∈ l, PyDict.get r x = none) →
    PyDict.get (l.foldl (fun r k => if k ∈ skipped then r else
        match PyDict.get ckpt k with
        | some v => PyDict.set r k v
        | none => r) r) k =
      (PyDict.get r k).or (if k ∈ l ∧ k ∉ skipped then PyDict.get ckpt k else none) := by
  have main : ∀ (l : List Key) (r : List (Key × β)) (k : Key),
    (∀ x ∈ l, PyDict.get r x = none ∨ PyDict.get r x = PyDict.get ckpt x) →
    PyDict.get (l.foldl (fun r k => if k ∈ skipped then r else
        match PyDict.get ckpt k with
        | some v => PyDict.set r k v
        | none => r) r) k =
      (PyDict.get r k).or (if k ∈ l ∧ k ∉ skipped then PyDict.get ckpt k else none) := by
    intro l
    induction l with
    | nil => intro r k _; simp
    | cons a l ih =>
      intro r k h
      rw [List.foldl_cons]
      by_cases ha : a ∈ skipped
      · rw [if_pos ha, ih _ _ (fun x hx => h x (by simp [hx]))]
        congr 1
        by_cases hka : k = a
        · subst hka; simp [ha]
        · simp [hka]
      · rw [if_neg ha]
        cases hg : PyDict.get ckpt a with
        | none =>
          simp only
          rw [ih _ _ (fun x hx => h x (by simp [hx]))]
          congr 1
          by_cases hka : k = a
          · subst hka; simp [hg]
          · simp [hka]
        | some v =>
          simp only
          rw [ih, PyDict.get_set]
          · by_cases hka : a = k
            · subst hka
              rcases h a (by simp) with h' | h'
              · simp [hg, ha, h']
              · simp [hg, h']
            · have : ¬ k = a := fun h => hka h.symm
              simp [hka, this]
          · intro x hx
            rw [PyDict.get_set]
            by_cases hax : a = x
            · subst hax; simp [hg]
            · simp only [hax, if_false]; exact h x (by simp [hx])
  intro r k h
  exact main l r k (fun x hx => Or.inl (h x hx))

open Classical in
/-- Complete description of the flat result. -/
theorem assignFlat_spec (ckpt opt : List (Key × β)) (rules : List Rule) (hc : PyDict.WF ckpt)
    (ho : PyDict.WF opt) (req : Bool) (r : List (Key × β))
    (h : assignFlat ckpt opt rules req = .ok r) :
    (∀ k o, k ∈ PyDict.keys opt → src rules k = some o → PyDict.has ckpt o = true) ∧
    ∀ k, PyDict.get r k =
      if k ∈ PyDict.keys opt ∧ skips rules k then none
      else if ∃ k' ∈ PyDict.keys opt, src rules k' = some k then
        (if k ∈ PyDict.keys opt then (match src rules k with
          | some o => PyDict.get ckpt o
          | none => PyDict.get ckpt k) else none)
      else (PyDict.get ckpt k).or
        (if k ∈ PyDict.keys opt then (src rules k).bind (PyDict.get ckpt) else none) := by
  unfold assignFlat at h
  rcases mapKeys_inv ckpt rules (PyDict.keys opt) [] _ (mapInv_init ckpt rules hc) (by simp) ho with
    ⟨st, h1, h2⟩ | ⟨h1, _⟩
  · rw [h1] at h
    simp only at h
    split_ifs at h with hreq
    cases h
    have hmem : ∀ k, k ∈ (PyDict.keys opt).reverse ++ [] ↔ k ∈ PyDict.keys opt := by simp
    refine ⟨fun k o hk hs => h2.present k ((hmem k).2 hk) o hs, ?_⟩
    intro k
    have hR1 := get_foldl_set_if st.unmapped h2.wfu st.skipped st.result
    set R1 := st.unmapped.foldl
      (fun r kv => if kv.1 ∈ st.skipped then r else PyDict.set r kv.1 kv.2) st.result with hR1d
    refine (get_foldl_copy ckpt st.skipped ((PyDict.keys opt).filter (fun k => !PyDict.has R1 k)) R1 k (by
      intro x hx
      have := (List.mem_filter.1 hx).2
      simp only [PyDict.has] at this
      cases hg : PyDict.get R1 x with
      | none => rfl
      | some v => rw [hg] at this; cases this)).trans ?_
    have hex : (∃ k' ∈ (PyDict.keys opt).reverse ++ [], src rules k' = some k) ↔
        ∃ k' ∈ PyDict.keys opt, src rules k' = some k := by simp
    have e1 : PyDict.get R1 k = _ := hR1 k
    have e2 := h2.res k
    have e3 := h2.unm k
    have e4 := h2.skp k
    simp only [hmem] at e2 e4
    simp only [hex] at e3
    have e5 : k ∈ (PyDict.keys opt).filter (fun k => !PyDict.has R1 k) ↔
        k ∈ PyDict.keys opt ∧ PyDict.get R1 k = none := by
      simp [List.mem_filter, PyDict.has]
    by_cases hskip : k ∈ PyDict.keys opt ∧ skips rules k
    · have hs : src rules k = none := by
        obtain ⟨r, a, b⟩ := hskip.2; simp [src, a, b]
      rw [if_pos hskip]
      rw [if_pos (e4.2 hskip), e2, hs] at e1
      rw [e1]
      simp [e4.2 hskip]
    · rw [if_neg hskip]
      have hns : k ∉ st.skipped := fun h => hskip (e4.1 h)
      rw [if_neg hns, e3, e2] at e1
      rw [e1]
      simp only [e5, e1]
      by_cases hc1 : ∃ k' ∈ PyDict.keys opt, src rules k' = some k
      · simp only [hc1, if_true, Option.none_or]
        by_cases hk : k ∈ PyDict.keys opt
        · simp only [hk, if_true, true_and]
          cases hs : src rules k with
          | none => simp [hns]
          | some o =>
            have hp := h2.present k ((hmem k).2 hk) o hs
            unfold PyDict.has at hp
            obtain ⟨v, hv⟩ := Option.isSome_iff_exists.1 hp
            simp [hv]
        · simp [hk]
      · simp only [hc1, if_false]
        by_cases hk : k ∈ PyDict.keys opt
        · simp only [hk, if_true, true_and]
          cases hg : PyDict.get ckpt k with
          | some v => simp
          | none => cases (src rules k).bind (PyDict.get ckpt) <;> simp
        · cases hg : PyDict.get ckpt k <;> simp [hk]
  · rw [h1] at h; cases h

theorem assignFlat_wf (ckpt opt : List (Key × β)) (rules : List Rule) (hc : PyDict.WF ckpt)
    (ho : PyDict.WF opt) (req : Bool) (r : List (Key × β))
    (h : assignFlat ckpt opt rules req = .ok r) : PyDict.WF r := by
  unfold assignFlat at h
  rcases mapKeys_inv ckpt rules (PyDict.keys opt) [] _ (mapInv_init ckpt rules hc) (by simp) ho with
    ⟨st, h1, h2⟩ | ⟨h1, _⟩
  · rw [h1] at h
    simp only at h
    split_ifs at h with hreq
    cases h
    have f1 : ∀ (l : List (Key × β)) (r : List (Key × β)), PyDict.WF r →
        PyDict.WF (l.foldl (fun r kv => if kv.1 ∈ st.skipped then r else PyDict.set r kv.1 kv.2) r) := by
      intro l
      induction l with
      | nil => intro r hr; exact hr
      | cons a l ih =>
        intro r hr
        refine ih _ ?_
        beta_reduce
        split_ifs
        · exact hr
        · exact PyDict.wf_set _ hr _ _
    have f2 : ∀ (l : List Key) (r : List (Key × β)), PyDict.WF r →
        PyDict.WF (l.foldl (fun r k => if k ∈ st.skipped then r else
          match PyDict.get ckpt k with
          | some v => PyDict.set r k v
          | none => r) r) := by
      intro l
      induction l with
      | nil => intro r hr; exact hr
      | cons a l ih =>
        intro r hr
        refine ih _ ?_
        beta_reduce
        split_ifs
        · exact hr
        · split
          · exact PyDict.wf_set _ hr _ _
          · exact hr
    exact f2 _ _ (f1 _ _ h2.wfr)
  · rw [h1] at h; cases h

theorem assignFlat_missing (ckpt opt : List (Key × β)) (rules : List Rule) (hc : PyDict.WF ckpt)
    (ho : PyDict.WF opt) (req : Bool) :
    assignFlat ckpt opt rules req = .error .missing ↔
      ∃ k ∈ PyDict.keys opt, ∃ o, src rules k = some o ∧ PyDict.get ckpt o = none := by
  unfold assignFlat
  rcases mapKeys_inv ckpt rules (PyDict.keys opt) [] _ (mapInv_init ckpt rules hc) (by simp) ho with
    ⟨st, h1, h2⟩ | ⟨h1, h3⟩
  · rw [h1]
    simp only
    constructor
    · intro h
      split_ifs at h
      cases h
    · rintro ⟨k, hk, o, hs, hg⟩
      have := h2.present k (by simpa using hk) o hs
      simp [PyDict.has, hg] at this
  · rw [h1]; simp only [true_iff]; exact h3

theorem assignFlat_unused (ckpt opt : List (Key × β)) (rules : List Rule) (hc : PyDict.WF ckpt)
    (ho : PyDict.WF opt) :
    (∃ r, assignFlat ckpt opt rules true = .ok r) ↔
      (∀ k ∈ PyDict.keys opt, ∀ o, src rules k = some o → PyDict.get ckpt o ≠ none) ∧
      (rules.map Rule.pattern).Nodup ∧
      ∀ r ∈ rules, ∃ k ∈ PyDict.keys opt, ∃ r', firstMatch rules k = some r' ∧ r'.pattern = r.pattern := by
  unfold assignFlat
  rcases mapKeys_inv ckpt rules (PyDict.keys opt) [] _ (mapInv_init ckpt rules hc) (by simp) ho with
    ⟨st, h1, h2⟩ | ⟨h1, h3⟩
  · rw [h1]
    simp only [Bool.true_and]
    have husd : ∀ p, p ∈ st.used ↔ ∃ k ∈ PyDict.keys opt, ∃ r, firstMatch rules k = some r ∧ r.pattern = p := by
      intro p; rw [h2.usd]; simp
    have hsub : st.used ⊆ rules.map Rule.pattern := by
      intro p hp
      obtain ⟨k, _, r, h1, rfl⟩ := (husd p).1 hp
      exact List.mem_map.2 ⟨r, List.mem_of_find?_eq_some h1, rfl⟩
    have hsp : st.used.Subperm (rules.map Rule.pattern) := List.subperm_of_subset h2.und hsub
    constructor
    · rintro ⟨r, h⟩
      split_ifs at h with hlen
      have hlen : rules.length = st.used.length := by simpa using hlen
      have hperm : st.used.Perm (rules.map Rule.pattern) := hsp.perm_of_length_le (by simp [hlen])
      refine ⟨?_, hperm.nodup_iff.1 h2.und, ?_⟩
      · intro k hk o hs hg
        have := h2.present k (by simpa using hk) o hs
        simp [PyDict.has, hg] at this
      · intro r hr
        have := (hperm.mem_iff (a := r.pattern)).2 (List.mem_map.2 ⟨r, hr, rfl⟩)
        exact (husd _).1 this
    · rintro ⟨_, hnd, hall⟩
      have hsub2 : rules.map Rule.pattern ⊆ st.used := by
        intro p hp
        obtain ⟨r, hr, rfl⟩ := List.mem_map.1 hp
        exact (husd _).2 (hall r hr)
      have h5 := (List.subperm_of_subset hnd hsub2).length_le
      have h6 := hsp.length_le
      simp only [List.length_map] at h5 h6
      have : rules.length = st.used.length := by omega
      rw [if_neg (by simp [this])]
      exact ⟨_, rfl⟩
  · rw [h1]
    simp only
    constructor
    · rintro ⟨r, h⟩; cases h
    · rintro ⟨h, _⟩
      obtain ⟨k, hk, o, a, b⟩ := h3
      exact absurd b (h k hk o a)

end Verif.StateDict
