import Verif.Spec.OptaxState
import Verif.Lemmas.StateDict
namespace Verif.OptaxState
open Verif Verif.StateDict Verif.StateDict.Spec Spec

variable {α : Type}

/-- Nothing is a leaf dict. -/
abbrev F : Dict α → Bool := fun _ => false

/-- Drop empty dicts, recursively. -/
def prune : Dict α → Dict α
  | .nil => .nil
  | .leaf k a r => .leaf k a (prune r)
  | .sub k d r =>
    match prune d with
    | .nil => prune r
    | d' => .sub k d' (prune r)

theorem prune_sub (k : Key) (d r : Dict α) :
    (prune d = .nil ∧ prune (.sub k d r) = prune r) ∨ (prune d ≠ .nil ∧ prune (.sub k d r) = .sub k (prune d) (prune r)) := by
  cases h : prune d with
  | nil => left; exact ⟨rfl, by simp [prune, h]⟩
  | leaf k' a r' => right; exact ⟨by simp, by simp [prune, h]⟩
  | sub k' d' r' => right; exact ⟨by simp, by simp [prune, h]⟩

theorem prune_keys (d : Dict α) : ∀ k ∈ (prune d).keys, k ∈ d.keys := by
  induction d with
  | nil => intro k h; exact h
  | leaf k a r ih =>
    intro k' h
    rcases List.mem_cons.mp h with rfl | h
    · exact List.mem_cons_self
    · exact List.mem_cons_of_mem _ (ih k' h)
  | sub k d r _ ih =>
    intro k' h
    rcases prune_sub k d r with ⟨_, e⟩ | ⟨_, e⟩
    · rw [e] at h; exact List.mem_cons_of_mem _ (ih k' h)
    · rw [e] at h
      rcases List.mem_cons.mp h with rfl | h
      · exact List.mem_cons_self
      · exact List.mem_cons_of_mem _ (ih k' h)

theorem prune_proper (d : Dict α) (h : Proper F d) : Proper F (prune d) ∧ NoEmpty F (prune d) := by
  induction d with
  | nil => exact ⟨trivial, trivial⟩
  | leaf k a r ih => exact ⟨⟨h.1, fun hk => h.2.1 (prune_keys r k hk), (ih h.2.2).1⟩, (ih h.2.2).2⟩
  | sub k d r ih1 ih2 =>
    have hd : Proper F d := h.2.2.1.resolve_left (by simp)
    rcases prune_sub k d r with ⟨_, e⟩ | ⟨hn, e⟩
    · rw [e]; exact ih2 h.2.2.2
    · rw [e]
      exact ⟨⟨h.1, fun hk => h.2.1 (prune_keys r k hk), Or.inr (ih1 hd).1, (ih2 h.2.2.2).1⟩,
        Or.inr ⟨hn, (ih1 hd).2⟩, (ih2 h.2.2.2).2⟩

theorem prune_paths (d : Dict α) : paths F false (prune d) = paths F false d := by
  induction d with
  | nil => rfl
  | leaf k a r ih => simp [prune, paths, ih]
  | sub k d r ih1 ih2 =>
    rcases prune_sub k d r with ⟨h, e⟩ | ⟨_, e⟩
    · rw [e, ih2]
      rw [h] at ih1
      simp [paths, ← ih1]
    · rw [e]
      simp [paths, ih1, ih2]

theorem flat_eq (ke : Bool) (d : Dict α) (hd : Proper F d) : flat ke d = (paths F ke d).map (fun e => (join e.1, e.2)) := by
  unfold flat
  rw [flattenGo_eq]
  · simp
  · simp only [PyDict.keys, List.map_nil, List.nil_append]
    have h1 := paths_nodup F ke d hd
    have h2 : (paths F ke d).map (fun e => join e.1) = ((paths F ke d).map Prod.fst).map join := by simp [Function.comp_def]
    rw [h2]
    refine List.Nodup.map_on ?_ h1
    intro x hx y hy hxy
    obtain ⟨e, he, rfl⟩ := List.mem_map.1 hx
    obtain ⟨e', he', rfl⟩ := List.mem_map.1 hy
    exact join_inj _ _ (paths_ne_nil _ _ _ e he) (paths_ne_nil _ _ _ e' he')
      (paths_no_sep _ _ _ hd e he) (paths_no_sep _ _ _ hd e' he') hxy

theorem unflatten_join (l : List (List Key × Val α)) (h : ∀ e ∈ l, e.1 ≠ [] ∧ ∀ k ∈ e.1, '/' ∉ k) :
    unflatten (l.map (fun e => (join e.1, e.2))) = unflattenPaths .nil l := by
  unfold unflatten
  rw [List.map_map]
  congr 1
  conv_rhs => rw [← List.map_id l]
  apply List.map_congr_left
  intro e he
  simp only [Function.comp_def, id_eq]
  rw [split_join e.1 (h e he).1 (h e he).2]

/-- `state_dict` drops exactly the empty dicts. -/
theorem stateDict_eq (s : Dict α) (hs : Proper F s) : stateDict s = some (prune s) := by
  unfold stateDict
  rw [flat_eq false s hs, unflatten_join]
  · rw [← prune_paths]
    have hp := prune_proper s hs
    have := unflattenPaths_relabel F false (fun _ v => v) (prune s) [] .nil
      (by simpa [Dict.keys] using distinct_keys F _ hp.1.distinct) hp.1.distinct (Or.inl hp.2)
    rw [relabel_id] at this
    simpa [Dict.append] using this
  · intro e he
    exact ⟨paths_ne_nil _ _ _ e he, paths_no_sep _ _ _ hs e he⟩

/-- Whether a value is the empty dict. -/
def isE : Val α → Bool
  | .dict .nil => true
  | _ => false

/-- The paths of the empty dicts. -/
def empties (d : Dict α) : List (List Key × Val α) := (paths F true d).filter (fun e => isE e.2)

@[simp] theorem isE_arr (a : α) : isE (.arr a) = false := rfl
@[simp] theorem isE_nil : isE (.dict .nil : Val α) = true := rfl

theorem has_pos {src : List (Key × Val α)} {k : Key} (h : k ∈ PyDict.keys src) : PyDict.has src k = true :=
  (PyDict.get_isSome_iff _ _).2 h
theorem has_neg {src : List (Key × Val α)} {k : Key} (h : k ∉ PyDict.keys src) : ¬ PyDict.has src k = true :=
  fun h' => h ((PyDict.get_isSome_iff _ _).1 h')

theorem isE_eq (v : Val α) (h : isE v = true) : v = .dict .nil := by
  unfold isE at h
  split at h
  · rfl
  · cases h

theorem addEmpty_ok : ∀ (ref src : List (Key × Val α)),
    (ref.map Prod.fst).Nodup →
    (∀ e ∈ ref, isE e.2 = false → e.1 ∈ PyDict.keys src) → (∀ e ∈ ref, isE e.2 = true → e.1 ∉ PyDict.keys src) →
    addEmpty ref src = .ok (src ++ ref.filter (fun e => isE e.2)) := by
  intro ref
  induction ref with
  | nil => intro src _ _ _; simp [addEmpty]
  | cons e ref ih =>
    obtain ⟨k, v⟩ := e
    intro src hn h1 h2
    rw [List.map_cons, List.nodup_cons] at hn
    simp only [addEmpty]
    cases hv : isE v with
    | false =>
      rw [if_pos (has_pos (show k ∈ _ from h1 (k, v) List.mem_cons_self hv)), ih src hn.2
        (fun x hx => h1 x (List.mem_cons_of_mem _ hx)) (fun x hx => h2 x (List.mem_cons_of_mem _ hx))]
      simp [List.filter_cons, hv]
    | true =>
      have hb : k ∉ PyDict.keys src := h2 (k, v) List.mem_cons_self hv
      have hvn := isE_eq v hv
      subst hvn
      rw [if_neg (has_neg hb)]
      dsimp only
      rw [PyDict.set_append_of_not_mem src k _ hb, ih _ hn.2]
      · simp [List.filter_cons]
      · intro x hx hxe
        have := h1 x (List.mem_cons_of_mem _ hx) hxe
        simp only [PyDict.keys, List.map_append, List.mem_append] at this ⊢
        exact Or.inl this
      · intro x hx hxe
        have := h2 x (List.mem_cons_of_mem _ hx) hxe
        simp only [PyDict.keys, List.map_append, List.mem_append, not_or] at this ⊢
        refine ⟨this, ?_⟩
        simp only [List.map_cons, List.map_nil, List.mem_singleton]
        intro hk
        exact hn.1 (List.mem_map.mpr ⟨x, hx, hk⟩)

theorem addEmpty_missing (k : Key) (a : α) : ∀ (ref src : List (Key × Val α)),
    (ref.map Prod.fst).Nodup → (k, Val.arr a) ∈ ref → k ∉ PyDict.keys src →
    addEmpty ref src = .error .missing := by
  intro ref
  induction ref with
  | nil => intro src _ h; cases h
  | cons e ref ih =>
    obtain ⟨k', v⟩ := e
    intro src hn hm hk
    rw [List.map_cons, List.nodup_cons] at hn
    simp only [addEmpty]
    rcases List.mem_cons.mp hm with h | h
    · cases h
      rw [if_neg (has_neg hk)]
    · split_ifs with hs
      · exact ih src hn.2 h hk
      · split
        · refine ih _ hn.2 h ?_
          rw [PyDict.keys_set]
          have hne : k ≠ k' := fun e => hn.1 (e ▸ (List.mem_map_of_mem h : (k, Val.arr a).1 ∈ ref.map Prod.fst))
          split_ifs
          · exact hk
          · simp only [List.mem_append, List.mem_singleton, not_or]; exact ⟨hk, hne⟩
        · rfl

/-- Dropping the empty dicts of the flattening leaves the arrays. -/
theorem paths_nonempty (d : Dict α) : (paths F true d).filter (fun e => !isE e.2) = paths F false d := by
  induction d with
  | nil => rfl
  | leaf k a r ih => simp [paths, ih]
  | sub k d r ih1 ih2 =>
    simp only [paths, Bool.false_eq_true, if_false, Bool.true_and, Bool.false_and, List.filter_append, ih2]
    congr 1
    cases d with
    | nil => simp [Dict.keys, paths]
    | leaf k' a' r' =>
      simp only [Dict.keys, List.isEmpty_cons, Bool.false_eq_true, if_false, List.filter_map, Function.comp_def]
      rw [ih1]
    | sub k' d' r' =>
      simp only [Dict.keys, List.isEmpty_cons, Bool.false_eq_true, if_false, List.filter_map, Function.comp_def]
      rw [ih1]

theorem SameShape.keys {t s : Dict α} (h : SameShape t s) : t.keys = s.keys := by
  induction t generalizing s with
  | nil => cases s <;> simp_all [SameShape]
  | leaf k a r ih =>
    cases s with
    | leaf k' a' r' => simp only [Dict.keys, h.1, ih h.2]
    | _ => exact h.elim
  | sub k d r _ ih =>
    cases s with
    | sub k' d' r' => simp only [Dict.keys, h.1, ih h.2.2]
    | _ => exact h.elim

/-- States of the same shape have the same paths and the same empty dicts. -/
theorem SameShape.paths {t s : Dict α} (h : SameShape t s) (ke : Bool) :
    (StateDict.paths F ke t).map (fun e => (e.1, isE e.2)) = (StateDict.paths F ke s).map (fun e => (e.1, isE e.2)) := by
  induction t generalizing s with
  | nil => cases s <;> simp_all [SameShape]
  | leaf k a r ih =>
    cases s with
    | leaf k' a' r' => simp only [StateDict.paths, List.map_cons, ih h.2, h.1, isE_arr]
    | _ => exact h.elim
  | sub k d r ih1 ih2 =>
    cases s with
    | sub k' d' r' =>
      simp only [StateDict.paths, Bool.false_eq_true, if_false, List.map_append, ih2 h.2.2, h.1]
      congr 1
      rw [SameShape.keys h.2.1]
      split_ifs with hc
      · simp only [Bool.and_eq_true, List.isEmpty_iff] at hc
        have e1 : d' = .nil := by cases d' <;> simp_all [Dict.keys]
        have e2 : d = .nil := by
          have := (SameShape.keys h.2.1).trans hc.2
          cases d <;> simp_all [Dict.keys]
        rw [e1, e2]
      · simp only [List.map_map, Function.comp_def]
        have := congrArg (List.map (fun e : List Key × Bool => (k' :: e.1, e.2))) (ih1 h.2.1)
        simpa only [List.map_map, Function.comp_def] using this
    | _ => exact h.elim

theorem SameShape.proper {t s : Dict α} (h : SameShape t s) (hs : ProperDict s) : ProperDict t := by
  induction t generalizing s with
  | nil => trivial
  | leaf k a r ih =>
    cases s with
    | leaf k' a' r' =>
      obtain ⟨rfl, h2⟩ := h
      exact ⟨hs.1, by rw [SameShape.keys h2]; exact hs.2.1, ih h2 hs.2.2⟩
    | _ => exact h.elim
  | sub k d r ih1 ih2 =>
    cases s with
    | sub k' d' r' =>
      obtain ⟨rfl, h2, h3⟩ := h
      exact ⟨hs.1, by rw [SameShape.keys h3]; exact hs.2.1,
        Or.inr (ih1 h2 (hs.2.2.1.resolve_left (by simp))), ih2 h3 hs.2.2.2⟩
    | _ => exact h.elim

/-- What the dict of the arrays looks like before the empty dicts are put back. -/
def Pre : Dict α → Dict α → Prop
  | .nil, _ => True
  | .leaf k a r, acc => acc.get k = some (.arr a) ∧ Pre r acc
  | .sub k d r, acc => ((prune d = .nil ∧ acc.get k = none) ∨ (prune d ≠ .nil ∧ ∃ e, acc.get k = some (.dict e) ∧ Pre d e)) ∧ Pre r acc

/-- `u` holds everything of `s`. -/
def Fits : Dict α → Dict α → Prop
  | .nil, _ => True
  | .leaf k a r, u => u.get k = some (.arr a) ∧ Fits r u
  | .sub k d r, u => (∃ e, u.get k = some (.dict e) ∧ Fits d e) ∧ Fits r u

theorem Pre.congr {s : Dict α} {a b : Dict α} (h : Pre s a) (he : ∀ k ∈ s.keys, a.get k = b.get k) : Pre s b := by
  induction s with
  | nil => trivial
  | leaf k x r ih =>
    exact ⟨by rw [← he k List.mem_cons_self]; exact h.1, ih h.2 (fun k' hk' => he k' (List.mem_cons_of_mem _ hk'))⟩
  | sub k d r _ ih =>
    refine ⟨?_, ih h.2 (fun k' hk' => he k' (List.mem_cons_of_mem _ hk'))⟩
    rw [← he k List.mem_cons_self]
    exact h.1

theorem pre_prune (s : Dict α) (h : Proper F s) : Pre s (prune s) := by
  induction s with
  | nil => trivial
  | leaf k a r ih =>
    refine ⟨by simp [prune, Dict.get], (ih h.2.2).congr ?_⟩
    intro k' hk'
    simp only [prune, Dict.get]
    rw [if_neg (by rintro rfl; exact h.2.1 hk')]
  | sub k d r ih1 ih2 =>
    have hd : Proper F d := h.2.2.1.resolve_left (by simp)
    rcases prune_sub k d r with ⟨hn, e⟩ | ⟨hn, e⟩
    · rw [e]
      refine ⟨Or.inl ⟨hn, ?_⟩, ih2 h.2.2.2⟩
      rw [Dict.get_eq_none_iff]
      exact fun hk => h.2.1 (prune_keys r k hk)
    · rw [e]
      refine ⟨Or.inr ⟨hn, prune d, by simp [Dict.get], ih1 hd⟩, (ih2 h.2.2.2).congr ?_⟩
      intro k' hk'
      simp only [Dict.get]
      rw [if_neg (by rintro rfl; exact h.2.1 hk')]

theorem pre_nil (s : Dict α) (h : prune s = .nil) : Pre s .nil := by
  induction s with
  | nil => trivial
  | leaf k a r ih => simp [prune] at h
  | sub k d r ih1 ih2 =>
    rcases prune_sub k d r with ⟨hn, e⟩ | ⟨hn, e⟩
    · rw [e] at h
      exact ⟨Or.inl ⟨hn, rfl⟩, ih2 h⟩
    · rw [e] at h; cases h

theorem set_self (d : Dict α) (k : Key) (v : Val α) (h : d.get k = some v) : d.set k v = d := by
  induction d with
  | nil => cases h
  | leaf k' a r ih =>
    simp only [Dict.get] at h
    simp only [Dict.set]
    split_ifs at h ⊢ with hk
    · subst hk; cases h; rfl
    · rw [ih h]
  | sub k' d r _ ih =>
    simp only [Dict.get] at h
    simp only [Dict.set]
    split_ifs at h ⊢ with hk
    · subst hk; cases h; rfl
    · rw [ih h]

theorem empties_ne_nil (d : Dict α) (hd : d ≠ .nil) (h : prune d = .nil) : empties d ≠ [] := by
  intro he
  have h1 : paths F false d = [] := by rw [← prune_paths, h]; rfl
  have h2 : paths F true d = [] := by
    have e : ∀ l : List (List Key × Val α), l.filter (fun e => isE e.2) = [] → l.filter (fun e => !isE e.2) = [] → l = [] := by
      intro l a b
      cases l with
      | nil => rfl
      | cons x l =>
        cases hx : isE x.2 <;> simp [List.filter_cons, hx] at a b
    exact e _ he (by rw [paths_nonempty, h1])
  exact hd (paths_eq_nil F true d (Or.inr rfl) h2)

theorem empties_sub (k : Key) (d r : Dict α) : empties (.sub k d r) =
    (if d.keys.isEmpty then [([k], .dict .nil)] else (empties d).map fun e => (k :: e.1, e.2)) ++ empties r := by
  unfold empties
  simp only [paths, Bool.false_eq_true, if_false, Bool.true_and, List.filter_append]
  congr 1
  cases d with
  | nil => simp [Dict.keys]
  | leaf k' a' r' => simp only [Dict.keys, List.isEmpty_cons, Bool.false_eq_true, if_false, List.filter_map, Function.comp_def]
  | sub k' d' r' => simp only [Dict.keys, List.isEmpty_cons, Bool.false_eq_true, if_false, List.filter_map, Function.comp_def]

theorem empties_path (d : Dict α) : ∀ e ∈ empties d, e.1 ≠ [] :=
  fun e he => paths_ne_nil _ _ _ e (List.mem_filter.mp he).1

/-- Putting the empty dicts back. -/
theorem put_back (s : Dict α) : ∀ acc : Dict α, Proper F s → Pre s acc →
    ∃ u, unflattenPaths acc (empties s) = some u ∧ Fits s u ∧ ∀ k, k ∉ s.keys → u.get k = acc.get k := by
  induction s with
  | nil => intro acc _ _; exact ⟨acc, rfl, trivial, fun _ _ => rfl⟩
  | leaf k a r ih =>
    intro acc hp h
    obtain ⟨u, h1, h2, h3⟩ := ih acc hp.2.2 h.2
    refine ⟨u, by simpa [empties, paths] using h1, ⟨by rw [h3 k hp.2.1]; exact h.1, h2⟩, ?_⟩
    intro k' hk'
    exact h3 k' (fun hm => hk' (List.mem_cons_of_mem _ hm))
  | sub k d r ih1 ih2 =>
    intro acc hp h
    have hd : Proper F d := hp.2.2.1.resolve_left (by simp)
    have key : ∃ e, unflattenPaths acc (if d.keys.isEmpty then [([k], .dict .nil)] else (empties d).map fun e => (k :: e.1, e.2))
        = some (acc.set k (.dict e)) ∧ Fits d e := by
      by_cases hn : d = .nil
      · subst hn
        exact ⟨.nil, by simp [Dict.keys, unflattenPaths, ins], trivial⟩
      · have hk : d.keys.isEmpty = false := by cases d <;> simp_all [Dict.keys]
        rw [hk]
        simp only [Bool.false_eq_true, if_false]
        rcases h.1 with ⟨hpn, hg⟩ | ⟨hpn, e, hg, hpre⟩
        · obtain ⟨u, h1, h2, _⟩ := ih1 .nil hd (pre_nil d hpn)
          have hkn := (Dict.get_eq_none_iff acc k).1 hg
          refine ⟨u, ?_, h2⟩
          rw [unflattenPaths_new k _ acc hkn (empties_ne_nil d hn hpn) (empties_path d), h1, set_new acc k _ hkn]
          rfl
        · obtain ⟨u, h1, h2, _⟩ := ih1 e hd hpre
          refine ⟨u, ?_, h2⟩
          have := unflattenPaths_sub k (empties d) acc e (empties_path d)
          rw [set_self acc k _ hg, h1] at this
          exact this
    obtain ⟨e, he, hf⟩ := key
    have hr : Pre r (acc.set k (.dict e)) := h.2.congr (fun k' hk' => by
      rw [Dict.get_set, if_neg]; rintro rfl; exact hp.2.1 hk')
    obtain ⟨u, h1, h2, h3⟩ := ih2 _ hp.2.2.2 hr
    refine ⟨u, ?_, ⟨⟨e, ?_, hf⟩, h2⟩, ?_⟩
    · rw [empties_sub, unflattenPaths_append, he]
      exact h1
    · rw [h3 k hp.2.1, Dict.get_set, if_pos rfl]
    · intro k' hk'
      rw [h3 k' (fun hm => hk' (List.mem_cons_of_mem _ hm)), Dict.get_set, if_neg]
      rintro rfl
      exact hk' List.mem_cons_self

theorem fromStateDict_fits (t : Dict α) : ∀ s u : Dict α, SameShape t s → Fits s u → fromStateDict t u = some s := by
  induction t with
  | nil => intro s u h _; cases s <;> simp_all [SameShape, fromStateDict]
  | leaf k a r ih =>
    intro s u h hf
    cases s with
    | leaf k' a' r' =>
      obtain ⟨rfl, h2⟩ := h
      simp only [fromStateDict, hf.1, ih r' u h2 hf.2, Dict.cons]
    | _ => exact h.elim
  | sub k d r ih1 ih2 =>
    intro s u h hf
    cases s with
    | sub k' d' r' =>
      obtain ⟨rfl, h2, h3⟩ := h
      obtain ⟨⟨e, he, hfe⟩, hfr⟩ := hf
      simp only [fromStateDict, he, ih1 d' e h2 hfe, ih2 r' u h3 hfr]
    | _ => exact h.elim

theorem Fits.congr {s : Dict α} {a b : Dict α} (h : Fits s a) (he : ∀ k ∈ s.keys, a.get k = b.get k) : Fits s b := by
  induction s with
  | nil => trivial
  | leaf k x r ih =>
    exact ⟨by rw [← he k List.mem_cons_self]; exact h.1, ih h.2 (fun k' hk' => he k' (List.mem_cons_of_mem _ hk'))⟩
  | sub k d r _ ih =>
    refine ⟨?_, ih h.2 (fun k' hk' => he k' (List.mem_cons_of_mem _ hk'))⟩
    rw [← he k List.mem_cons_self]
    exact h.1

theorem fits_self (s : Dict α) (h : Proper F s) : Fits s s := by
  induction s with
  | nil => trivial
  | leaf k a r ih =>
    refine ⟨by simp [Dict.get], (ih h.2.2).congr ?_⟩
    intro k' hk'
    simp only [Dict.get]
    rw [if_neg (by rintro rfl; exact h.2.1 hk')]
  | sub k d r ih1 ih2 =>
    refine ⟨⟨d, by simp [Dict.get], ih1 (h.2.2.1.resolve_left (by simp))⟩, (ih2 h.2.2.2).congr ?_⟩
    intro k' hk'
    simp only [Dict.get]
    rw [if_neg (by rintro rfl; exact h.2.1 hk')]

theorem fromStateDict_self (t s : Dict α) (h : SameShape t s) (hs : ProperDict s) : fromStateDict t s = some s :=
  fromStateDict_fits t s s h (fits_self s hs)

theorem keys_flat (ke : Bool) (d : Dict α) (hd : Proper F d) : (flat ke d).map Prod.fst = ((paths F ke d).map Prod.fst).map join := by
  rw [flat_eq ke d hd]; simp [Function.comp_def]

theorem keys_flat_nodup (ke : Bool) (d : Dict α) (hd : Proper F d) : ((flat ke d).map Prod.fst).Nodup := by
  rw [keys_flat ke d hd]
  refine List.Nodup.map_on ?_ (paths_nodup F ke d hd)
  intro x hx y hy hxy
  obtain ⟨e, he, rfl⟩ := List.mem_map.1 hx
  obtain ⟨e', he', rfl⟩ := List.mem_map.1 hy
  exact join_inj _ _ (paths_ne_nil _ _ _ e he) (paths_ne_nil _ _ _ e' he')
    (paths_no_sep _ _ _ hd e he) (paths_no_sep _ _ _ hd e' he') hxy

theorem restoreState_prune (t s : Dict α) (h : SameShape t s) (hs : Proper F s) : restoreState t (prune s) = .ok s := by
  have ht : Proper F t := SameShape.proper h hs
  have hpp := (prune_proper s hs).1
  have hsame : (paths F true t).map (fun e => (e.1, isE e.2)) = (paths F true s).map (fun e => (e.1, isE e.2)) :=
    SameShape.paths h true
  have hfl : flat false (prune s) = (paths F false s).map (fun e => (join e.1, e.2)) := by
    rw [flat_eq false _ hpp, prune_paths]
  -- a path of `t` is a path of `s` with the same kind
  have htr : ∀ e ∈ paths F true t, ∃ e' ∈ paths F true s, e'.1 = e.1 ∧ isE e'.2 = isE e.2 := by
    intro e he
    have hm : (e.1, isE e.2) ∈ (paths F true s).map (fun e => (e.1, isE e.2)) := by
      rw [← hsame]; exact List.mem_map_of_mem he
    obtain ⟨e', he', e2⟩ := List.mem_map.mp hm
    exact ⟨e', he', (Prod.mk.inj e2).1, (Prod.mk.inj e2).2⟩
  have hadd : addEmpty (flat true t) (flat false (prune s)) =
      .ok (flat false (prune s) ++ (flat true t).filter (fun e => isE e.2)) := by
    refine addEmpty_ok _ _ (keys_flat_nodup true t ht) ?_ ?_
    · intro x hx hxe
      rw [flat_eq true t ht] at hx
      obtain ⟨e, he, rfl⟩ := List.mem_map.mp hx
      obtain ⟨e', he', e1, e2⟩ := htr e he
      have hm : e' ∈ paths F false s := by
        rw [← paths_nonempty, List.mem_filter]
        exact ⟨he', by rw [e2]; simpa using hxe⟩
      rw [hfl]
      refine List.mem_map.mpr ⟨(join e'.1, e'.2), List.mem_map.mpr ⟨e', hm, rfl⟩, ?_⟩
      dsimp only
      rw [e1]
    · intro x hx hxe hk
      rw [flat_eq true t ht] at hx
      obtain ⟨e, he, rfl⟩ := List.mem_map.mp hx
      obtain ⟨e', he', e1, e2⟩ := htr e he
      rw [hfl] at hk
      obtain ⟨y, hy, hyk⟩ := List.mem_map.mp hk
      obtain ⟨z, hz, rfl⟩ := List.mem_map.mp hy
      rw [← paths_nonempty, List.mem_filter] at hz
      dsimp only at hyk hxe
      have hp : z.1 = e.1 := join_inj _ _ (paths_ne_nil _ _ _ z hz.1) (paths_ne_nil _ _ _ e he)
        (paths_no_sep _ _ _ hs z hz.1) (paths_no_sep _ _ _ ht e he) hyk
      have hze : z = e' := by
        have hn := paths_nodup F true s hs
        exact List.inj_on_of_nodup_map hn hz.1 he' (hp.trans e1.symm)
      rw [hze, e2, hxe] at hz
      simp at hz
  have hfilt : (flat true t).filter (fun e => isE e.2) = (empties s).map (fun e => (join e.1, e.2)) := by
    rw [flat_eq true t ht, List.filter_map]
    have hval : ∀ d : Dict α, (paths F true d).filter (fun e => isE e.2) =
        (((paths F true d).map (fun e => (e.1, isE e.2))).filter (fun e => e.2)).map (fun e => (e.1, Val.dict Dict.nil)) := by
      intro d
      generalize paths F true d = l
      induction l with
      | nil => rfl
      | cons x l ih =>
        cases hx : isE x.2 with
        | false => simp [List.filter_cons, hx, ih]
        | true =>
          simp only [List.map_cons, List.filter_cons, hx, if_true, List.map_cons, ih]
          congr 1
          rw [← isE_eq _ hx]
    have : (paths F true t).filter (fun e => isE e.2) = empties s := by
      unfold empties
      rw [hval t, hval s, hsame]
    rw [← this]
    rfl
  obtain ⟨u, h1, h2, _⟩ := put_back s (prune s) hs (pre_prune s hs)
  have hunf : unflatten (flat false (prune s) ++ (flat true t).filter (fun e => isE e.2)) = some u := by
    rw [hfl, hfilt, ← List.map_append, unflatten_join]
    · rw [unflattenPaths_append]
      have := stateDict_eq s hs
      unfold stateDict at this
      rw [flat_eq false s hs, unflatten_join] at this
      · rw [this]
        exact h1
      · intro e he
        exact ⟨paths_ne_nil _ _ _ e he, paths_no_sep _ _ _ hs e he⟩
    · intro e he
      rcases List.mem_append.mp he with he | he
      · exact ⟨paths_ne_nil _ _ _ e he, paths_no_sep _ _ _ hs e he⟩
      · exact ⟨empties_path s e he, paths_no_sep _ _ _ hs e (List.mem_filter.mp he).1⟩
  simp only [restoreState, hadd, hunf, fromStateDict_fits t s u h h2]

theorem arrayAt_leafAt (p : List Key) (a : α) : ∀ d : Dict α, arrayAt d p = some a ↔ leafAt F d p = some (.arr a) := by
  induction p with
  | nil => intro d; simp [arrayAt, leafAt]
  | cons k ks ih =>
    intro d
    match ks, ih with
    | [], _ =>
      simp only [arrayAt, leafAt]
      cases hg : d.get k with
      | none => simp
      | some v => cases v <;> simp
    | k2 :: ks, ih =>
      simp only [arrayAt, leafAt]
      cases hg : d.get k with
      | none => simp
      | some v =>
        cases v with
        | arr b => simp
        | dict e => simpa using ih e

theorem leafAt_arr (d : Dict α) (p : List Key) (v : Val α) (h : leafAt F d p = some v) : ∃ a, v = .arr a := by
  have := leafAt_leafLike F p d v h
  cases v with
  | arr a => exact ⟨a, rfl⟩
  | dict e => simp [LeafLike] at this

theorem arrayAt_eq_of_paths (d e : Dict α) (hd : Proper F d) (he : Proper F e) (h : paths F false d = paths F false e) (p : List Key) :
    arrayAt d p = arrayAt e p := by
  have key : ∀ a, arrayAt d p = some a ↔ arrayAt e p = some a := by
    intro a
    rw [arrayAt_leafAt, arrayAt_leafAt, ← mem_paths F d hd, ← mem_paths F e he, h]
  cases h1 : arrayAt d p with
  | some a => exact ((key a).1 h1).symm
  | none =>
    cases h2 : arrayAt e p with
    | none => rfl
    | some b => rw [(key b).2 h2] at h1; cases h1

end Verif.OptaxState
