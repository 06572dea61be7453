import Verif.Spec.OptaxAxes
import Verif.Props.OptaxState
import Verif.Lemmas.Fallback
/- Helper lemmas for the logical axes of optax states. -/
namespace Verif.OptaxAxes
open Verif.StateDict Verif.StateDict.Spec
open Verif.OptaxState (restoreState restoreState_prune prune prune_paths flat_eq prune_proper)
open Verif.OptaxState.Spec (arrayAt SameShape ProperDict)
open Verif.Fallback (arrayAt_leaf arrayAt_sub arrayAt_nil arrayAt_head)
open Verif.OptaxAxes.Spec

variable {A X : Type}

theorem restoreState_same (t s : Dict X) (h : SameShape t s) (hs : ProperDict s) : restoreState t s = .ok s := by
  rw [← restoreState_prune t s h hs]
  have : OptaxState.flat false s = OptaxState.flat false (prune s) := by
    rw [flat_eq false s hs, flat_eq false _ (prune_proper s hs).1, prune_paths]
  simp only [restoreState, this]

theorem sameShape_symm {s t : Dict X} (h : SameShape s t) : SameShape t s := by
  induction s generalizing t with
  | nil => cases t <;> simp_all [SameShape]
  | leaf k a r ih => cases t with
    | nil => cases h
    | sub => cases h
    | leaf k' a' r' => exact ⟨h.1.symm, ih h.2⟩
  | sub k d r ihd ih => cases t with
    | nil => cases h
    | leaf => cases h
    | sub k' d' r' => exact ⟨h.1.symm, ihd h.2.1, ih h.2.2⟩

theorem sameShape_refl (s : Dict X) : SameShape s s := by
  induction s with
  | nil => trivial
  | leaf k a r ih => exact ⟨rfl, ih⟩
  | sub k d r ihd ih => exact ⟨rfl, ihd, ih⟩

theorem arrayAt_empty (q : List Key) : arrayAt (.nil : Dict X) q = none := by
  cases q with
  | nil => rfl
  | cons k ks => rw [Fallback.arrayAt_cons]; cases ks <;> rfl

theorem keys_nones (s : State A) : (nones s : Dict (Option X)).keys = s.keys := by
  induction s with
  | nil => rfl
  | arr k a r ih => simp [nones, State.keys, Dict.keys, ih]
  | masked k r ih => simp [nones, State.keys, Dict.keys, ih]
  | node k c r _ ih => simp [nones, State.keys, Dict.keys, ih]
  | named k kd c r _ ih => simp [nones, State.keys, Dict.keys, ih]

/-- The rule that fits a sort. -/
def ruleFor : FieldSort → Rule
  | .scalar => .noAxes
  | .params => .params
  | .grads => .paramsAxes
  | .inner => .inner
  | .tree => .noneLeaves
  | .unused => .default

theorem rules_sorts (kind : Kind) (ss : List (Key × FieldSort)) (h : sorts kind = some ss) :
    rules kind = some (ss.map fun e => (e.1, ruleFor e.2)) := by
  cases kind <;> cases h <;> rfl

theorem lookup_map (ss : List (Key × FieldSort)) (k : Key) : (ss.map fun e => (e.1, ruleFor e.2)).lookup k = (ss.lookup k).map ruleFor := by
  induction ss with
  | nil => rfl
  | cons e l ih =>
    obtain ⟨k', x⟩ := e
    simp only [List.map_cons, List.lookup_cons, ih]
    cases k == k' <;> rfl

/-- The rules where the sorts are `m`. -/
def rulesFor (m : Option (List (Key × FieldSort))) : Option (List (Key × Rule)) := m.map fun ss => ss.map fun e => (e.1, ruleFor e.2)

theorem ruleOf_sortOf (m : Option (List (Key × FieldSort))) (k : Key) (x : FieldSort) (h : sortOf m k = some x) : ruleOf (rulesFor m) k = some (ruleFor x) := by
  cases m with
  | none => cases h; rfl
  | some ss =>
    simp only [sortOf] at h
    simp only [rulesFor, Option.map_some, ruleOf, lookup_map, h]

theorem mirror_keys {b : Bool} {pa : Dict X} {c : State A} (h : Mirror b pa c) : c.keys = pa.keys := by
  induction pa generalizing c with
  | nil => cases c <;> first | rfl | cases h
  | leaf k x r ih =>
    cases c with
    | nil => cases h
    | arr k' a r' => simp only [State.keys, Dict.keys, ih h.2, h.1]
    | masked k' r' => simp only [State.keys, Dict.keys, ih h.2.2, h.2.1]
    | node => cases h
    | named => cases h
  | sub k d r _ ih =>
    cases c with
    | nil => cases h
    | arr k' a r' => cases h
    | masked k' r' => cases h
    | node k' c r' => simp only [State.keys, Dict.keys, ih h.2.2, h.1]
    | named => cases h

theorem all_contains {b : Bool} {pa : Dict X} {c : State A} (h : Mirror b pa c) : c.keys.all pa.keys.contains = true := by
  rw [mirror_keys h]
  exact List.all_eq_true.2 fun k hk => List.contains_iff_mem.2 hk

/-- The result for a tree with one array per parameter. -/
def Good (c : State A) (pa : Dict X) (d : Dict (Option X)) : Prop :=
  SameShape (nones c) d ∧ ∀ q, arrayAt (nones c : Dict (Option X)) q ≠ none → arrayAt d q = some (arrayAt pa q)

theorem deriveParams_spec (pa : Dict X) (c cs : State A) (h : Mirror true pa cs) (hp : ProperDict (nones cs : Dict (Option X)))
    (hg : ∀ k ∈ cs.keys, c.get k = cs.get k) : ∃ d, deriveParams pa c = .ok d ∧ Good cs pa d := by
  induction pa generalizing c cs with
  | nil =>
    cases cs <;> first | cases h | skip
    exact ⟨.nil, rfl, trivial, fun q hq => absurd (arrayAt_empty q) hq⟩
  | leaf k x r ih =>
    cases cs with
    | nil => cases h
    | node => cases h
    | named => cases h
    | arr k' a r' =>
      obtain ⟨rfl, h2⟩ := h
      have hn : k ∉ r'.keys := by rw [← keys_nones (X := X)]; exact hp.2.1
      obtain ⟨d, hd, hs, hq⟩ := ih c r' h2 hp.2.2 (fun j hj => by
        rw [hg j (List.mem_cons_of_mem _ hj), State.get, if_neg (show ¬ k = j from fun e => hn (e ▸ hj))])
      have h0 : c.get k = some (.arr a) := by rw [hg k List.mem_cons_self, State.get, if_pos rfl]
      refine ⟨.leaf k (some x) d, by simp only [deriveParams, h0, hd], ⟨rfl, hs⟩, ?_⟩
      intro q hq'
      cases q with
      | nil => exact absurd (arrayAt_nil _) hq'
      | cons k1 ks =>
        rw [nones, arrayAt_leaf] at hq'
        rw [arrayAt_leaf, arrayAt_leaf]
        split_ifs at hq' ⊢ with h1 h2
        · rfl
        · exact absurd rfl hq'
        · exact hq _ hq'
    | masked k' r' =>
      obtain ⟨_, rfl, h2⟩ := h
      have hn : k ∉ r'.keys := by rw [← keys_nones (X := X)]; exact hp.2.1
      obtain ⟨d, hd, hs, hq⟩ := ih c r' h2 hp.2.2.2 (fun j hj => by
        rw [hg j (List.mem_cons_of_mem _ hj), State.get, if_neg (show ¬ k = j from fun e => hn (e ▸ hj))])
      have h0 : c.get k = some .masked := by rw [hg k List.mem_cons_self, State.get, if_pos rfl]
      refine ⟨.sub k .nil d, by simp only [deriveParams, h0, hd], ⟨rfl, trivial, hs⟩, ?_⟩
      intro q hq'
      cases q with
      | nil => exact absurd (arrayAt_nil _) hq'
      | cons k1 ks =>
        rw [nones, arrayAt_sub] at hq'
        rw [arrayAt_leaf, arrayAt_sub]
        split_ifs at hq' ⊢ with h1 h2
        · exact absurd (arrayAt_empty ks) hq'
        · exact absurd (arrayAt_empty ks) hq'
        · exact hq _ hq'
  | sub k d r ihd ih =>
    cases cs with
    | nil => cases h
    | arr => cases h
    | masked => cases h
    | named => cases h
    | node k' c' r' =>
      obtain ⟨rfl, h1, h2⟩ := h
      have hn : k ∉ r'.keys := by rw [← keys_nones (X := X)]; exact hp.2.1
      have hp1 : ProperDict (nones c' : Dict (Option X)) := hp.2.2.1.resolve_left (by simp)
      obtain ⟨d1, hd1, hs1, hq1⟩ := ihd c' c' h1 hp1 (fun _ _ => rfl)
      obtain ⟨d2, hd2, hs2, hq2⟩ := ih c r' h2 hp.2.2.2 (fun j hj => by
        rw [hg j (List.mem_cons_of_mem _ hj), State.get, if_neg (show ¬ k = j from fun e => hn (e ▸ hj))])
      have h0 : c.get k = some (.node c') := by rw [hg k List.mem_cons_self, State.get, if_pos rfl]
      refine ⟨.sub k d1 d2, by simp only [deriveParams, h0, all_contains h1, hd1, hd2, if_true], ⟨rfl, hs1, hs2⟩, ?_⟩
      intro q hq'
      cases q with
      | nil => exact absurd (arrayAt_nil _) hq'
      | cons k1 ks =>
        rw [nones, arrayAt_sub] at hq'
        rw [arrayAt_sub, arrayAt_sub]
        split_ifs at hq' ⊢ with h1
        · exact hq1 _ hq'
        · exact hq2 _ hq'

theorem allSome_spec (pa : Dict X) (c : State A) (h : Mirror false pa c) : Good c pa (allSome pa) := by
  induction pa generalizing c with
  | nil =>
    cases c <;> first | cases h | skip
    exact ⟨trivial, fun q hq => absurd (arrayAt_empty q) hq⟩
  | leaf k x r ih =>
    cases c with
    | nil => cases h
    | node => cases h
    | named => cases h
    | masked => exact absurd h.1 (by simp)
    | arr k' a r' =>
      obtain ⟨rfl, h2⟩ := h
      obtain ⟨hs, hq⟩ := ih r' h2
      refine ⟨⟨rfl, hs⟩, ?_⟩
      intro q hq'
      cases q with
      | nil => exact absurd (arrayAt_nil _) hq'
      | cons k1 ks =>
        rw [nones, arrayAt_leaf] at hq'
        rw [allSome, arrayAt_leaf, arrayAt_leaf]
        split_ifs at hq' ⊢ with h1 h2
        · rfl
        · exact absurd rfl hq'
        · exact hq _ hq'
  | sub k d r ihd ih =>
    cases c with
    | nil => cases h
    | arr => cases h
    | masked => cases h
    | named => cases h
    | node k' c' r' =>
      obtain ⟨rfl, h1, h2⟩ := h
      obtain ⟨hs1, hq1⟩ := ihd c' h1
      obtain ⟨hs2, hq2⟩ := ih r' h2
      refine ⟨⟨rfl, hs1, hs2⟩, ?_⟩
      intro q hq'
      cases q with
      | nil => exact absurd (arrayAt_nil _) hq'
      | cons k1 ks =>
        rw [nones, arrayAt_sub] at hq'
        rw [allSome, arrayAt_sub, arrayAt_sub]
        split_ifs at hq' ⊢ with h1
        · exact hq1 _ hq'
        · exact hq2 _ hq'

theorem nones_none (s : State A) (q : List Key) (h : arrayAt (nones s : Dict (Option X)) q ≠ none) :
    arrayAt (nones s : Dict (Option X)) q = some none := by
  induction s generalizing q with
  | nil => exact absurd (arrayAt_empty q) h
  | arr k a r ih =>
    cases q with
    | nil => exact absurd (arrayAt_nil _) h
    | cons k1 ks =>
      rw [nones, arrayAt_leaf] at h ⊢
      split_ifs at h ⊢ with h1 h2
      · rfl
      · exact absurd rfl h
      · exact ih _ h
  | masked k r ih =>
    cases q with
    | nil => exact absurd (arrayAt_nil _) h
    | cons k1 ks =>
      rw [nones, arrayAt_sub] at h ⊢
      split_ifs at h ⊢ with h1
      · exact absurd (arrayAt_empty ks) h
      · exact ih _ h
  | node k c r ihc ih =>
    cases q with
    | nil => exact absurd (arrayAt_nil _) h
    | cons k1 ks =>
      rw [nones, arrayAt_sub] at h ⊢
      split_ifs at h ⊢ with h1
      · exact ihc _ h
      · exact ih _ h
  | named k kd c r ihc ih =>
    cases q with
    | nil => exact absurd (arrayAt_nil _) h
    | cons k1 ks =>
      rw [nones, arrayAt_sub] at h ⊢
      split_ifs at h ⊢ with h1
      · exact ihc _ h
      · exact ih _ h

/-- Skipping the first entry. -/
theorem paramOf_skip (m : Option (List (Key × FieldSort))) (s r : State A) (k : Key) (ks : List Key) (h : s.get k = r.get k) :
    paramOf m s (k :: ks) = paramOf m r (k :: ks) := by simp only [paramOf, h]

theorem leaf_step (s r : State A) (pa : Dict X) (m : Option (List (Key × FieldSort))) (k : Key) (r' : Dict (Option X))
    (hs : nones s = .leaf k none (nones r : Dict (Option X))) (hget : ∀ k', k ≠ k' → s.get k' = r.get k')
    (h0 : (paramOf m s [k]).bind (arrayAt pa) = none) (hr : SameShape (nones r) r')
    (hq : ∀ q, arrayAt (nones r : Dict (Option X)) q ≠ none → arrayAt r' q = some ((paramOf m r q).bind (arrayAt pa))) :
    SameShape (nones s) (.leaf k none r') ∧
      ∀ q, arrayAt (nones s : Dict (Option X)) q ≠ none → arrayAt (.leaf k none r') q = some ((paramOf m s q).bind (arrayAt pa)) := by
  rw [hs]
  refine ⟨⟨rfl, hr⟩, ?_⟩
  intro q hq'
  cases q with
  | nil => exact absurd (arrayAt_nil _) hq'
  | cons k1 ks =>
    rw [arrayAt_leaf] at hq' ⊢
    split_ifs at hq' ⊢ with h1 h2
    · subst h1; subst h2; rw [h0]
    · exact absurd rfl hq'
    · rw [hq _ hq', paramOf_skip m s r k1 ks (hget k1 h1)]

theorem sub_step (s r : State A) (pa : Dict X) (m : Option (List (Key × FieldSort))) (k : Key) (t d r' : Dict (Option X))
    (hs : nones s = .sub k t (nones r : Dict (Option X))) (hget : ∀ k', k ≠ k' → s.get k' = r.get k')
    (ht : SameShape t d) (h0 : ∀ q, arrayAt t q ≠ none → arrayAt d q = some ((paramOf m s (k :: q)).bind (arrayAt pa)))
    (hr : SameShape (nones r) r')
    (hq : ∀ q, arrayAt (nones r : Dict (Option X)) q ≠ none → arrayAt r' q = some ((paramOf m r q).bind (arrayAt pa))) :
    SameShape (nones s) (.sub k d r') ∧
      ∀ q, arrayAt (nones s : Dict (Option X)) q ≠ none → arrayAt (.sub k d r') q = some ((paramOf m s q).bind (arrayAt pa)) := by
  rw [hs]
  refine ⟨⟨rfl, ht, hr⟩, ?_⟩
  intro q hq'
  cases q with
  | nil => exact absurd (arrayAt_nil _) hq'
  | cons k1 ks =>
    rw [arrayAt_sub] at hq' ⊢
    split_ifs at hq' ⊢ with h1
    · subst h1; exact h0 _ hq'
    · rw [hq _ hq', paramOf_skip m s r k1 ks (hget k1 h1)]

theorem derive_spec (pa : Dict X) (s : State A) (m : Option (List (Key × FieldSort))) (h : StateFor pa m s)
    (hp : ProperDict (nones s : Dict (Option X))) :
    ∃ d, derive pa (rulesFor m) s = .ok d ∧ SameShape (nones s) d ∧
      ∀ q, arrayAt (nones s : Dict (Option X)) q ≠ none → arrayAt d q = some ((paramOf m s q).bind (arrayAt pa)) := by
  induction s generalizing m with
  | nil => exact ⟨.nil, by cases m <;> rfl, trivial, fun q hq => absurd (arrayAt_empty q) hq⟩
  | arr k a r ih =>
    obtain ⟨r', hr, hs, hq⟩ := ih m h.2 hp.2.2
    refine ⟨.leaf k none r', ?_, leaf_step (.arr k a r) r pa m k r' rfl (fun k' hk => by rw [State.get, if_neg hk]) ?_ hs hq⟩
    · rcases h.1 with h1 | h1 | h1 <;> simp only [derive, hr, ruleOf_sortOf m k _ h1, ruleFor]
    · rcases h.1 with h1 | h1 | h1 <;> simp [paramOf, h1, State.get]
  | masked k r ih =>
    obtain ⟨r', hr, hs, hq⟩ := ih m h.2 hp.2.2.2
    refine ⟨.sub k .nil r', ?_, sub_step (.masked k r) r pa m k .nil .nil r' rfl (fun k' hk => by rw [State.get, if_neg hk]) trivial ?_ hs hq⟩
    · rcases h.1 with h1 | h1 <;> simp only [derive, hr, ruleOf_sortOf m k _ h1, ruleFor]
    · exact fun q hq => absurd (arrayAt_empty q) hq
  | node k c r ihc ih =>
    obtain ⟨r', hr, hs, hq⟩ := ih m h.2 hp.2.2.2
    have hpc : ProperDict (nones c : Dict (Option X)) := hp.2.2.1.resolve_left (by simp)
    have step : ∀ d, SameShape (nones c) d →
        (∀ q, arrayAt (nones c : Dict (Option X)) q ≠ none → arrayAt d q = some ((paramOf m (.node k c r) (k :: q)).bind (arrayAt pa))) → _ :=
      fun d h1 h2 => sub_step (.node k c r) r pa m k (nones c) d r' rfl (fun k' hk => by rw [State.get, if_neg hk]) h1 h2 hs hq
    rcases h.1 with ⟨h1, h2⟩ | ⟨h1, h2⟩ | ⟨h1, h2⟩ | h1 | ⟨h1, rfl⟩
    · obtain ⟨d, hd, hg1, hg2⟩ := deriveParams_spec pa c c h2 hpc (fun _ _ => rfl)
      refine ⟨.sub k d r', ?_, step d hg1 ?_⟩
      · simp only [derive, hr, ruleOf_sortOf m k _ h1, ruleFor, all_contains h2, hd, if_true]
      · intro q hq'
        simp only [paramOf, h1, Option.bind_some]
        exact hg2 q hq'
    · obtain ⟨hg1, hg2⟩ := allSome_spec pa c h2
      refine ⟨.sub k (allSome pa) r', ?_, step _ hg1 ?_⟩
      · simp only [derive, hr, ruleOf_sortOf m k _ h1, ruleFor]
      · intro q hq'
        simp only [paramOf, h1, Option.bind_some]
        exact hg2 q hq'
    · obtain ⟨d, hd, hg1, hg2⟩ := ihc none h2 hpc
      refine ⟨.sub k d r', ?_, step d hg1 ?_⟩
      · have hd' : derive pa none c = .ok d := hd
        simp only [derive, hr, ruleOf_sortOf m k _ h1, ruleFor, hd']
      · intro q hq'
        simp only [paramOf, h1, State.get, if_true]
        exact hg2 q hq'
    · refine ⟨.sub k (nones c) r', ?_, step _ (sameShape_refl _) ?_⟩
      · simp only [derive, hr, ruleOf_sortOf m k _ h1, ruleFor]
      · intro q hq'
        simp only [paramOf, h1, Option.bind_none]
        exact nones_none c q hq'
    · refine ⟨.sub k .nil r', ?_, step _ trivial ?_⟩
      · simp only [derive, hr, ruleOf_sortOf m k _ h1, ruleFor]
      · exact fun q hq => absurd (arrayAt_empty q) hq
  | named k kind f r ihf ih =>
    obtain ⟨h1, ⟨ss, hss, hf⟩, h3⟩ := h
    obtain ⟨r', hr, hs, hq⟩ := ih m h3 hp.2.2.2
    have hpc : ProperDict (nones f : Dict (Option X)) := hp.2.2.1.resolve_left (by simp)
    obtain ⟨d, hd, hg1, hg2⟩ := ihf (some ss) hf hpc
    refine ⟨.sub k d r', ?_, sub_step (.named k kind f r) r pa m k (nones f) d r' rfl (fun k' hk => by rw [State.get, if_neg hk]) hg1 ?_ hs hq⟩
    · have hd' : derive pa (some (ss.map fun e => (e.1, ruleFor e.2))) f = .ok d := hd
      have hk : ruleOf (rulesFor m) k = some .inner := ruleOf_sortOf m k _ h1
      simp only [derive, hr, hk, rules_sorts kind ss hss, hd']
    · intro q hq'
      simp only [paramOf, h1, State.get, if_true, hss]
      exact hg2 q hq'

theorem sameShape_proper {t s : Dict X} (h : SameShape t s) (ht : ProperDict t) : ProperDict s :=
  OptaxState.SameShape.proper (sameShape_symm h) ht

theorem restoreState_missing (t d : Dict X) (ht : ProperDict t) (hd : ProperDict d) (p : List Key) (h : arrayAt t p ≠ none)
    (hm : arrayAt d p = none) : restoreState t d = .error .missing := by
  have := OptaxState.C46_missing .nil t (.nil, d) ht hd (by simp [OptaxState.fromStateDict]) p h hm
  simp only [OptaxState.optaxRestore, OptaxState.fromStateDict] at this
  cases hr : restoreState t d with
  | error e => rw [hr] at this; simpa using this
  | ok x => rw [hr] at this; cases this

theorem derive_other (pa : Dict X) (s : State A) (m : Option (List (Key × FieldSort))) (h : HasUnregistered m s) :
    ∃ e, derive pa (rulesFor m) s = .error e := by
  induction s generalizing m with
  | nil => cases h
  | arr k a r ih =>
    obtain ⟨e, he⟩ := ih m h
    exact ⟨e, by simp only [derive, he]⟩
  | masked k r ih =>
    obtain ⟨e, he⟩ := ih m h
    exact ⟨e, by simp only [derive, he]⟩
  | node k c r ihc ih =>
    cases hr : derive pa (rulesFor m) r with
    | error e => exact ⟨e, by simp only [derive, hr]⟩
    | ok r' =>
      rcases h with ⟨h1, h2⟩ | h
      · obtain ⟨e, he⟩ := ihc none h2
        have he' : derive pa none c = .error e := he
        have hk : ruleOf (rulesFor m) k = some .inner := ruleOf_sortOf m k _ h1
        exact ⟨e, by simp only [derive, hr, hk, he']⟩
      · obtain ⟨e, he⟩ := ih m h
        rw [he] at hr; cases hr
  | named k kind f r ihf ih =>
    cases hr : derive pa (rulesFor m) r with
    | error e => exact ⟨e, by simp only [derive, hr]⟩
    | ok r' =>
      rcases h with ⟨h1, h2⟩ | h
      · have hk : ruleOf (rulesFor m) k = some .inner := ruleOf_sortOf m k _ h1
        rcases h2 with rfl | ⟨ss, hss, h2⟩
        · exact ⟨.unregistered, by simp only [derive, hr, hk, rules]⟩
        · obtain ⟨e, he⟩ := ihf (some ss) h2
          have he' : derive pa (some (ss.map fun e => (e.1, ruleFor e.2))) f = .error e := he
          exact ⟨e, by simp only [derive, hr, hk, rules_sorts kind ss hss, he']⟩
      · obtain ⟨e, he⟩ := ih m h
        rw [he] at hr; cases hr

end Verif.OptaxAxes
