import Verif.Model.ModelInfo
import Verif.Lemmas.StateDict
import Verif.Lemmas.OptaxState
/-
C129: what `log_model_info` writes.
-/
namespace Verif.ModelInfo
open Verif Verif.StateDict Verif.StateDict.Spec
open Verif.OptaxState (arrayAt_leafAt)
open Verif.OptaxState.Spec (ProperDict arrayAt)

variable {α β σ : Type}

namespace Spec

/-- The paths of the arrays (and `None`s) of a state dict, each once, in the order of their keys. -/
def Paths (d : Dict α) (ps : List (List Key)) : Prop := ps.Pairwise (· < ·) ∧ ∀ p, p ∈ ps ↔ arrayAt d p ≠ none

/-- The text for a shape: with the names of the axes, if there is one for every dimension. -/
def shapeText (logical : Option (List Key)) (shape : List Nat) : ShapeStr :=
  match logical with
  | none => .plain shape
  | some axes => if axes.length = shape.length then .named (axes.zip shape) else .plain shape

/-- The line for the variable at a path. -/
def lineOf (d : Dict (Option (List Nat))) (logical : List Key → Option (List Key)) (mesh : List Key → σ) (p : List Key) : Line σ :=
  match arrayAt d p with
  | some (some shape) => .variable (join p) shape.prod (shapeText (logical p) shape) (mesh p)
  | _ => .none (join p)

/-- The number of elements of the variable at a path. -/
def elements (d : Dict (Option (List Nat))) (p : List Key) : Nat :=
  match arrayAt d p with
  | some (some shape) => shape.prod
  | _ => 0

end Spec
open Spec

/-! ### The order of `jax.tree.map` -/

/-- The leaves in the order of the dict. -/
def leavesOf : Dict β → List (List Key × β)
  | .nil => []
  | .leaf k a r => ([k], a) :: leavesOf r
  | .sub k d r => ((leavesOf d).map fun e => (k :: e.1, e.2)) ++ leavesOf r

theorem ents_perm (d : Dict β) : ((ents d).flatMap Prod.snd).Perm (leavesOf d) := by
  induction d with
  | nil => exact List.Perm.refl _
  | leaf k a r ih => simpa [ents, leavesOf] using ih
  | sub k d r ihd ih =>
    simp only [ents, leavesOf, List.flatMap_cons]
    refine List.Perm.append (List.Perm.map _ ?_) ih
    exact ((List.perm_insertionSort _ (ents d)).flatMap_right _).trans ihd

theorem jaxLeaves_perm (d : Dict β) : (jaxLeaves d).Perm (leavesOf d) :=
  ((List.perm_insertionSort _ (ents d)).flatMap_right _).trans (ents_perm d)

theorem keys_ents (d : Dict β) : (ents d).map Prod.fst = d.keys := by
  induction d with
  | nil => rfl
  | leaf k a r ih => simp [ents, Dict.keys, ih]
  | sub k d r _ ih => simp [ents, Dict.keys, ih]

theorem sorted_ents (d : Dict β) (hd : ProperDict d)
    (h : ∀ e ∈ ents d, (e.2.map Prod.fst).Pairwise (· < ·) ∧ ∀ x ∈ e.2, ∃ q, x.1 = e.1 :: q) : ((jaxLeaves d).map Prod.fst).Pairwise (· < ·) := by
  have hn : ((ents d).map Prod.fst).Nodup := by
    rw [keys_ents]; exact distinct_keys (fun _ => false) d (Spec.Proper.distinct hd)
  have hp := List.perm_insertionSort (fun a b : Key × List (List Key × β) => a.1 ≤ b.1) (ents d)
  have hs : ((ents d).insertionSort fun a b => a.1 ≤ b.1).Pairwise (fun a b => a.1 ≤ b.1) := by
    haveI : Std.Total (fun a b : Key × List (List Key × β) => a.1 ≤ b.1) := ⟨fun a b => List.le_total a.1 b.1⟩
    haveI : IsTrans (Key × List (List Key × β)) (fun a b => a.1 ≤ b.1) := ⟨fun a b c => List.le_trans⟩
    exact List.pairwise_insertionSort _ _
  have hn' : ((ents d).insertionSort fun a b => a.1 ≤ b.1).Pairwise (fun a b => a.1 ≠ b.1) :=
    List.pairwise_map.1 ((hp.map Prod.fst).nodup_iff.2 hn)
  have hlt := hs.and hn'
  unfold jaxLeaves
  rw [List.map_flatMap, List.pairwise_flatMap]
  refine ⟨fun e he => (h e (hp.mem_iff.1 he)).1, hlt.imp_of_mem ?_⟩
  intro a b ha hb hab x hx y hy
  obtain ⟨x', hx', rfl⟩ := List.mem_map.1 hx
  obtain ⟨y', hy', rfl⟩ := List.mem_map.1 hy
  obtain ⟨q, hq⟩ := (h a (hp.mem_iff.1 ha)).2 x' hx'
  obtain ⟨q', hq'⟩ := (h b (hp.mem_iff.1 hb)).2 y' hy'
  rw [hq, hq', List.cons_lt_cons_iff]
  exact Or.inl ((List.le_iff_lt_or_eq.1 hab.1).resolve_right hab.2)

theorem ents_sorted (d : Dict β) (hd : ProperDict d) : ∀ e ∈ ents d, (e.2.map Prod.fst).Pairwise (· < ·) ∧ ∀ x ∈ e.2, ∃ q, x.1 = e.1 :: q := by
  induction d with
  | nil => intro e he; cases he
  | leaf k a r ih =>
    intro e he
    rcases List.mem_cons.1 he with rfl | he
    · refine ⟨by simp, fun x hx => ?_⟩
      rw [List.mem_singleton.1 hx]
      exact ⟨[], rfl⟩
    · exact ih hd.2.2 e he
  | sub k d r ihd ih =>
    intro e he
    rcases List.mem_cons.1 he with rfl | he
    · have hd' := hd.2.2.1.resolve_left (by simp)
      have := sorted_ents d hd' (ihd hd')
      refine ⟨?_, fun x hx => ?_⟩
      · dsimp only
        rw [List.map_map, List.pairwise_map]
        unfold jaxLeaves at this
        rw [List.pairwise_map] at this
        refine this.imp fun hab => ?_
        simp only [Function.comp]
        rw [List.cons_lt_cons_iff]
        exact Or.inr ⟨rfl, hab⟩
      · obtain ⟨y, -, rfl⟩ := List.mem_map.1 hx
        exact ⟨y.1, rfl⟩
    · exact ih hd.2.2.2 e he

theorem jaxLeaves_sorted (d : Dict β) (hd : ProperDict d) : ((jaxLeaves d).map Prod.fst).Pairwise (· < ·) := sorted_ents d hd (ents_sorted d hd)

theorem leavesOf_paths (d : Dict β) : (leavesOf d).map (fun e => (e.1, Val.arr e.2)) = paths (fun _ => false) false d := by
  induction d with
  | nil => rfl
  | leaf k a r ih => simp [leavesOf, paths, ih]
  | sub k d r ihd ih =>
    simp only [leavesOf, paths, List.map_append, ih, Bool.false_eq_true, if_false, Bool.false_and, ← ihd, List.map_map]
    rfl

theorem mem_jaxLeaves (d : Dict β) (hd : ProperDict d) (p : List Key) (a : β) : (p, a) ∈ jaxLeaves d ↔ arrayAt d p = some a := by
  rw [(jaxLeaves_perm d).mem_iff, arrayAt_leafAt, ← mem_paths _ d hd, ← leavesOf_paths, List.mem_map]
  constructor
  · intro h; exact ⟨_, h, rfl⟩
  · rintro ⟨e, he, h⟩
    cases e
    simp only [Prod.mk.injEq, Val.arr.injEq] at h
    rw [← h.1, ← h.2]
    exact he

/-! ### The tree of names -/

theorem valAt_cons (d : Dict β) (k : Key) (ks : List Key) : valAt d (k :: ks) =
    match ks with
    | [] => d.get k
    | _ :: _ => match d.get k with
      | some (.dict s) => valAt s ks
      | _ => none := by
  cases ks <;> rfl

theorem get_of_keys (d : Dict β) (k : Key) (h : k ∉ d.keys) : d.get k = none := (Dict.get_eq_none_iff d k).2 h

theorem paths_valAt (d : Dict β) (hd : ProperDict d) : ∀ e ∈ paths (fun _ => false) true d, valAt d e.1 = some e.2 ∧ ∀ s, e.2 = .dict s → s = .nil := by
  have skip : ∀ (d d' : Dict β) (k : Key) (q : List Key), d.get k = d'.get k → valAt d (k :: q) = valAt d' (k :: q) := by
    intro d d' k q h
    rw [valAt_cons, valAt_cons, h]
  induction d with
  | nil => intro e he; cases he
  | leaf k a r ih =>
    intro e he
    rcases List.mem_cons.1 he with rfl | he
    · exact ⟨by simp [valAt, Dict.get], fun s hs => by cases hs⟩
    · obtain ⟨h1, h2⟩ := ih hd.2.2 e he
      obtain ⟨k', q, e1, e2⟩ := paths_head _ _ _ e he
      refine ⟨?_, h2⟩
      have hne : k ≠ k' := fun h => hd.2.1 (h ▸ e2)
      rw [e1] at h1 ⊢
      rw [← h1]
      exact skip _ _ _ _ (by rw [Dict.get, if_neg hne])
  | sub k d r ihd ih =>
    intro e he
    simp only [paths, Bool.false_eq_true, if_false, Bool.true_and] at he
    rcases List.mem_append.1 he with he | he
    · split_ifs at he with hk
      · rw [List.mem_singleton.1 he]
        refine ⟨by simp [valAt, Dict.get], fun s hs => ?_⟩
        cases hs
        cases d with
        | nil => rfl
        | leaf => simp [Dict.keys] at hk
        | sub => simp [Dict.keys] at hk
      · obtain ⟨x, hx, rfl⟩ := List.mem_map.1 he
        obtain ⟨h1, h2⟩ := ihd (hd.2.2.1.resolve_left (by simp)) x hx
        obtain ⟨k', q, e1, e2⟩ := paths_head _ _ _ x hx
        refine ⟨?_, h2⟩
        dsimp only
        rw [e1] at h1 ⊢
        rw [valAt_cons]
        simp [Dict.get, h1]
    · obtain ⟨h1, h2⟩ := ih hd.2.2.2 e he
      obtain ⟨k', q, e1, e2⟩ := paths_head _ _ _ e he
      refine ⟨?_, h2⟩
      have hne : k ≠ k' := fun h => hd.2.1 (h ▸ e2)
      rw [e1] at h1 ⊢
      rw [← h1]
      exact skip _ _ _ _ (by rw [Dict.get, if_neg hne])

theorem paths_sub (d : Dict β) : ∀ e ∈ paths (fun _ => false) false d, e ∈ paths (fun _ => false) true d := by
  induction d with
  | nil => intro e he; cases he
  | leaf k a r ih =>
    intro e he
    rcases List.mem_cons.1 he with rfl | he
    · exact List.mem_cons_self
    · exact List.mem_cons_of_mem _ (ih e he)
  | sub k d r ihd ih =>
    intro e he
    simp only [paths, Bool.false_eq_true, if_false, Bool.false_and, Bool.true_and] at he ⊢
    rcases List.mem_append.1 he with he | he
    · obtain ⟨x, hx, rfl⟩ := List.mem_map.1 he
      refine List.mem_append_left _ ?_
      split_ifs with hk
      · cases d with
        | nil => cases hx
        | leaf => simp [Dict.keys] at hk
        | sub => simp [Dict.keys] at hk
      · exact List.mem_map_of_mem (ihd x hx)
    · exact List.mem_append_right _ (ih e he)

theorem arr_mem (d : Dict β) : ∀ p a, (p, Val.arr a) ∈ paths (fun _ => false) true d → (p, Val.arr a) ∈ paths (fun _ => false) false d := by
  induction d with
  | nil => intro p a he; cases he
  | leaf k b r ih =>
    intro p a he
    rcases List.mem_cons.1 he with he | he
    · rw [he]; exact List.mem_cons_self
    · exact List.mem_cons_of_mem _ (ih p a he)
  | sub k d r ihd ih =>
    intro p a he
    simp only [paths, Bool.false_eq_true, if_false, Bool.false_and, Bool.true_and] at he ⊢
    rcases List.mem_append.1 he with he | he
    · refine List.mem_append_left _ ?_
      split_ifs at he with hk
      · simp at he
      · obtain ⟨⟨q, v⟩, hx, h⟩ := List.mem_map.1 he
        simp only [Prod.mk.injEq] at h
        obtain ⟨rfl, rfl⟩ := h
        exact List.mem_map.2 ⟨_, ihd q a hx, rfl⟩
    · exact List.mem_append_right _ (ih p a he)

theorem leavesOf_relabel (g : List Key → Key) (d : Dict β) : ∀ pre,
    leavesOf (relabel (fun _ => false) true (fun p (_ : Val β) => Val.arr (g p)) pre d) =
      (paths (fun _ => false) true d).map fun e => (e.1, g (pre ++ e.1)) := by
  induction d with
  | nil => intro pre; rfl
  | leaf k a r ih => intro pre; simp [relabel, Dict.cons, paths, leavesOf, ih]
  | sub k d r ihd ih =>
    intro pre
    simp only [relabel, paths, Bool.false_eq_true, if_false, Bool.true_and]
    split_ifs with hk
    · simp [Dict.cons, leavesOf, ih]
    · simp [Dict.cons, leavesOf, ih, ihd, Function.comp_def]

theorem proper_relabel' (g : List Key → Key) (d : Dict β) (hd : ProperDict d) : ∀ pre,
    ProperDict (relabel (fun _ => false) true (fun p (_ : Val β) => Val.arr (g p)) pre d) := by
  induction d with
  | nil => intro pre; trivial
  | leaf k a r ih => intro pre; exact ⟨hd.1, by rw [keys_relabel]; exact hd.2.1, ih hd.2.2 pre⟩
  | sub k d r ih1 ih2 =>
    intro pre
    have h1 := ih1 (hd.2.2.1.resolve_left (by simp)) (pre ++ [k])
    simp only [relabel, Bool.false_eq_true, if_false, Bool.true_and]
    split_ifs with hk
    · exact ⟨hd.1, by rw [keys_relabel]; exact hd.2.1, ih2 hd.2.2.2 pre⟩
    · exact ⟨hd.1, by rw [keys_relabel]; exact hd.2.1, Or.inr h1, ih2 hd.2.2.2 pre⟩

theorem names_eq (d : Dict β) (hd : ProperDict d) :
    getNameTree d true = some (relabel (fun _ => false) true (fun p (_ : Val β) => Val.arr (join p)) [] d) := by
  have hflat : flattenGo (fun _ => false) true id [] [] d = paths (fun _ => false) true d := by
    rw [flattenGo_eq]
    · simp
    · simpa [PyDict.keys] using paths_nodup (fun _ => false) true d hd
  have h := unflattenPaths_relabel (fun _ => false) true (fun p (_ : Val β) => Val.arr (join p)) d []
    (.nil : Dict Key) (by simpa [Dict.keys] using distinct_keys _ d (Spec.Proper.distinct hd)) (Spec.Proper.distinct hd) (Or.inr rfl)
  have hlist : (flattenGo (fun _ => false) true id [] [] d).map (fun e => (e.1, Val.arr (join e.1))) =
      (paths (fun _ => false) true d).map fun e => (e.1, Val.arr (join ([] ++ e.1))) := by
    rw [hflat]; simp
  unfold getNameTree
  rw [hlist]
  exact h

theorem logLeaves_ok (d : Dict (Option (List Nat))) (hd : ProperDict d) (logical : List Key → Option (List Key)) (mesh : List Key → σ)
    (l : List (List Key × Key)) (h : ∀ e ∈ l, e.2 = join e.1 ∧ e.1 ∈ (paths (fun _ => false) true d).map Prod.fst) :
    logLeaves d logical mesh l = .ok (((l.map Prod.fst).filter fun p => (arrayAt d p).isSome).map (lineOf d logical mesh)) := by
  induction l with
  | nil => rfl
  | cons e l ih =>
    obtain ⟨p, name⟩ := e
    obtain ⟨h1, h2⟩ := h (p, name) List.mem_cons_self
    dsimp only at h1 h2
    subst h1
    obtain ⟨⟨p', v⟩, hx, rfl⟩ := List.mem_map.1 h2
    obtain ⟨hv, he⟩ := paths_valAt d hd _ hx
    dsimp only at hv he
    have ih := ih fun e he => h e (List.mem_cons_of_mem _ he)
    simp only [logLeaves, hv, ih]
    cases v with
    | dict s =>
      have hs := he s rfl
      subst hs
      have hn : arrayAt d p' = none := by
        cases ha : arrayAt d p' with
        | none => rfl
        | some a =>
          rw [arrayAt_leafAt, ← mem_paths _ d hd] at ha
          have := (paths_valAt d hd _ (paths_sub d _ ha)).1
          rw [hv] at this
          cases this
      simp [logVariable, hn]
    | arr a =>
      have ha : arrayAt d p' = some a := by
        rw [arrayAt_leafAt, ← mem_paths _ d hd]
        exact arr_mem d p' a hx
      cases a with
      | none => simp [logVariable, ha, lineOf]
      | some s =>
        simp only [logVariable, List.map_cons, List.filter_cons, ha, Option.isSome_some, if_true, lineOf, shapeText]
        cases logical p' with
        | none => rfl
        | some axes => simp

theorem logTree_ok (d : Dict (Option (List Nat))) (hd : ProperDict d) (logical : List Key → Option (List Key)) (mesh : List Key → σ) :
    ∃ ps, Paths d ps ∧ logTree d logical mesh = .ok (ps.map (lineOf d logical mesh)) := by
  unfold logTree
  rw [names_eq d hd]
  dsimp only
  have hm : ∀ e ∈ jaxLeaves (relabel (fun _ => false) true (fun p (_ : Val (Option (List Nat))) => Val.arr (join p)) [] d),
      e.2 = join e.1 ∧ e.1 ∈ (paths (fun _ => false) true d).map Prod.fst := by
    intro e he
    rw [(jaxLeaves_perm _).mem_iff, leavesOf_relabel] at he
    obtain ⟨x, hx, rfl⟩ := List.mem_map.1 he
    exact ⟨by simp, List.mem_map_of_mem hx⟩
  refine ⟨_, ⟨(jaxLeaves_sorted _ (proper_relabel' join d hd [])).filter _, fun p => ?_⟩, logLeaves_ok d hd logical mesh _ hm⟩
  rw [List.mem_filter, Option.isSome_iff_ne_none]
  refine ⟨fun h => h.2, fun h => ⟨?_, h⟩⟩
  obtain ⟨a, ha⟩ := Option.ne_none_iff_exists'.1 h
  rw [arrayAt_leafAt, ← mem_paths _ d hd] at ha
  rw [((jaxLeaves_perm _).map Prod.fst).mem_iff, leavesOf_relabel, List.map_map]
  exact List.mem_map.2 ⟨_, paths_sub d _ ha, rfl⟩

theorem sum_perm {l m : List Nat} (h : l.Perm m) : l.sum = m.sum := by
  induction h with
  | nil => rfl
  | cons a _ ih => simp [ih]
  | swap a b l => simp [Nat.add_left_comm]
  | trans _ _ h1 h2 => exact h1.trans h2

theorem foldl_add (l : List Nat) : ∀ a, l.foldl (· + ·) a = a + l.sum := by
  induction l with
  | nil => intro a; rfl
  | cons b l ih => intro a; simp [ih, Nat.add_assoc]

theorem totalParams_none (d : Dict (Option (List Nat))) (hd : ProperDict d) (h : ∀ p s, arrayAt d p ≠ some (some s)) : totalParams d = none := by
  unfold totalParams
  cases hl : (jaxLeaves d).filterMap fun e => e.2 with
  | nil => rfl
  | cons s l =>
    have : s ∈ (jaxLeaves d).filterMap fun e => e.2 := by rw [hl]; exact List.mem_cons_self
    obtain ⟨⟨p, a⟩, h1, h2⟩ := List.mem_filterMap.1 this
    dsimp only at h2
    subst h2
    exact absurd ((mem_jaxLeaves d hd p _).1 h1) (h p s)

theorem totalParams_some (d : Dict (Option (List Nat))) (hd : ProperDict d) (p : List Key) (s : List Nat) (hp : arrayAt d p = some (some s))
    (ps : List (List Key)) (hps : Paths d ps) : totalParams d = some (ps.map (elements d)).sum := by
  have hperm : ps.Perm ((jaxLeaves d).map Prod.fst) := by
    have irr : ∀ a b : List Key, a < b → a ≠ b := fun a b h e => List.lt_irrefl _ (e ▸ h)
    refine (List.perm_ext_iff_of_nodup (hps.1.imp (irr _ _)) ((jaxLeaves_sorted d hd).imp (irr _ _))).2 fun q => ?_
    rw [hps.2, List.mem_map]
    constructor
    · intro h
      obtain ⟨a, ha⟩ := Option.ne_none_iff_exists'.1 h
      exact ⟨(q, a), (mem_jaxLeaves d hd q a).2 ha, rfl⟩
    · rintro ⟨⟨q', a⟩, h, rfl⟩
      rw [(mem_jaxLeaves d hd q' a).1 h]
      simp
  have hsum : ∀ l : List (List Key × Option (List Nat)), (∀ e ∈ l, arrayAt d e.1 = some e.2) →
      ((l.filterMap fun e => e.2).map List.prod).sum = ((l.map Prod.fst).map (elements d)).sum := by
    intro l
    induction l with
    | nil => intro _; rfl
    | cons e l ih =>
      intro h
      obtain ⟨q, a⟩ := e
      have h1 := h _ List.mem_cons_self
      have h2 := ih fun e he => h e (List.mem_cons_of_mem _ he)
      dsimp only at h1
      cases a with
      | none => simpa [elements, h1] using h2
      | some s => simpa [elements, h1] using h2
  have hs := hsum (jaxLeaves d) fun e he => (mem_jaxLeaves d hd e.1 e.2).1 he
  have hmem : s ∈ (jaxLeaves d).filterMap fun e => e.2 := List.mem_filterMap.2 ⟨_, (mem_jaxLeaves d hd p _).2 hp, rfl⟩
  rw [sum_perm (hperm.map (elements d)), ← hs]
  unfold totalParams
  cases hl : (jaxLeaves d).filterMap fun e => e.2 with
  | nil => rw [hl] at hmem; cases hmem
  | cons a l => simp [foldl_add]

/-! ### Theorems -/

/-- C129: host 0 writes one line for every variable of the parameters in the order of their names' parts, the number of parameters, a blank line, and the
variables of the optimizer state. -/
theorem C129_info (target state : Dict (Option (List Nat))) (ht : ProperDict target) (hs : ProperDict state)
    (logical : Bool → List Key → Option (List Key)) (mesh : Bool → List Key → σ)
    (p : List Key) (s : List Nat) (hp : arrayAt target p = some (some s)) :
    ∃ ps qs, Paths target ps ∧ Paths state qs ∧
      logModelInfo 0 target state logical mesh = .ok (some (ps.map (lineOf target (logical true) (mesh true))
        ++ [.total (ps.map (elements target)).sum, .blank] ++ qs.map (lineOf state (logical false) (mesh false)))) := by
  obtain ⟨ps, h1, h2⟩ := logTree_ok target ht (logical true) (mesh true)
  obtain ⟨qs, h3, h4⟩ := logTree_ok state hs (logical false) (mesh false)
  refine ⟨ps, qs, h1, h3, ?_⟩
  simp only [logModelInfo, ne_eq, not_true_eq_false, if_false, totalParams_some target ht p s hp ps h1, h2, h4]

/-- C129: without a parameter there is a `TypeError`. -/
theorem C129_no_parameters (target state : Dict (Option (List Nat))) (ht : ProperDict target)
    (logical : Bool → List Key → Option (List Key)) (mesh : Bool → List Key → σ) (h : ∀ p s, arrayAt target p ≠ some (some s)) :
    logModelInfo 0 target state logical mesh = .error .noLeaves := by
  simp [logModelInfo, totalParams_none target ht h]

/-- C129: the other hosts write nothing, and do not fail. -/
theorem C129_other_hosts (i : Nat) (hi : i ≠ 0) (target state : Dict (Option (List Nat)))
    (logical : Bool → List Key → Option (List Key)) (mesh : Bool → List Key → σ) : logModelInfo i target state logical mesh = .ok none := by
  simp [logModelInfo, hi]

/-! ### The hypotheses hold of concrete states -/

def exTarget : Dict (Option (List Nat)) :=
  .sub "mlp".toList (.leaf "wo".toList (some [3, 2]) (.leaf "wi".toList (some [2, 3]) .nil)) (.leaf "bias".toList (some [3]) .nil)
def exState : Dict (Option (List Nat)) := .leaf "step".toList (some []) (.sub "mu".toList (.leaf "bias".toList none .nil) (.sub "empty".toList .nil .nil))

theorem exTarget_proper : ProperDict exTarget := by simp [exTarget, ProperDict, Spec.Proper, Dict.keys]
theorem exState_proper : ProperDict exState := by simp [exState, ProperDict, Spec.Proper, Dict.keys]

example : arrayAt exTarget ["mlp".toList, "wi".toList] = some (some [2, 3]) := by decide
example : ∀ p s, arrayAt (.nil : Dict (Option (List Nat))) p ≠ some (some s) := by
  intro p s
  rcases p with _ | ⟨a, _ | ⟨b, c⟩⟩ <;> simp [arrayAt, Dict.get]
example : logModelInfo 0 exTarget exState (fun _ p => if p = ["bias".toList] then some ["mlp".toList] else none) (fun _ _ => ()) =
    .ok (some [.variable "bias".toList 3 (.named [("mlp".toList, 3)]) (), .variable "mlp/wi".toList 6 (.plain [2, 3]) (),
      .variable "mlp/wo".toList 6 (.plain [3, 2]) (), .total 15, .blank, .none "mu/bias".toList, .variable "step".toList 1 (.plain []) ()]) := by decide +kernel

end Verif.ModelInfo
