import Verif.Spec.NamedTree
namespace Verif.NamedTree
open Spec
variable {β γ δ : Type}

def PForest.toList : PForest β → List (Key × PTree β)
  | .nil => []
  | .cons k t r => (k, t) :: r.toList

mutual
  theorem PTree.induct' {P : PTree β → Prop} (leaf : ∀ v, P (.leaf v))
      (node : ∀ dc cs, (∀ kt ∈ PForest.toList cs, P kt.2) → P (.node dc cs)) : ∀ t, P t
    | .leaf v => leaf v
    | .node dc cs => node dc cs (PForest.induct' leaf node cs)
  theorem PForest.induct' {P : PTree β → Prop} (leaf : ∀ v, P (.leaf v))
      (node : ∀ dc cs, (∀ kt ∈ PForest.toList cs, P kt.2) → P (.node dc cs)) : ∀ cs, ∀ kt ∈ PForest.toList cs, P kt.2
    | .nil => by intro kt h; cases h
    | .cons k t r => by
      intro kt h
      rcases List.mem_cons.mp h with rfl | h
      · exact PTree.induct' leaf node t
      · exact PForest.induct' leaf node r kt h
end

theorem sortK_map {X Y : Type} (h : X → Y) (l : List (Key × X)) :
    sortK (l.map (fun kx => (kx.1, h kx.2))) = (sortK l).map (fun kx => (kx.1, h kx.2)) := by
  unfold sortK
  rw [List.map_insertionSort (r := fun a b : Key × X => keyLe a.1 b.1 = true)
    (s := fun a b : Key × Y => keyLe a.1 b.1 = true)]
  intro a _ b _
  exact Iff.rfl

theorem jaxOrder_map {X Y : Type} (dc : Bool) (h : X → Y) (l : List (Key × X)) :
    jaxOrder dc (l.map (fun kx => (kx.1, h kx.2))) = (jaxOrder dc l).map (fun kx => (kx.1, h kx.2)) := by
  unfold jaxOrder
  split
  · rfl
  · exact sortK_map h l

theorem sortK_perm {X : Type} (l : List (Key × X)) : (sortK l).Perm l := List.perm_insertionSort _ _

theorem jaxOrder_perm {X : Type} (dc : Bool) (l : List (Key × X)) : (jaxOrder dc l).Perm l := by
  unfold jaxOrder
  split
  · exact List.Perm.refl _
  · exact sortK_perm l

theorem keyLe_total : ∀ a b : Key, keyLe a b = true ∨ keyLe b a = true
  | [], _ => Or.inl rfl
  | _ :: _, [] => Or.inr rfl
  | a :: as, b :: bs => by
    simp only [keyLe]
    rcases Nat.lt_trichotomy a.toNat b.toNat with h | h | h
    · simp [h]
    · simp only [h, lt_irrefl, if_false]
      exact keyLe_total as bs
    · right; simp [h]

theorem keyLe_trans : ∀ a b c : Key, keyLe a b = true → keyLe b c = true → keyLe a c = true
  | [], _, _, _, _ => rfl
  | _ :: _, [], _, h, _ => by simp [keyLe] at h
  | _ :: _, _ :: _, [], _, h => by simp [keyLe] at h
  | a :: as, b :: bs, c :: cs, h1, h2 => by
    simp only [keyLe] at h1 h2 ⊢
    split_ifs at h1 h2 ⊢
    all_goals first | rfl | omega | skip
    exact keyLe_trans as bs cs h1 h2

instance : Std.Total (fun a b : Key × β => keyLe a.1 b.1 = true) := ⟨fun a b => keyLe_total a.1 b.1⟩
instance : IsTrans (Key × β) (fun a b : Key × β => keyLe a.1 b.1 = true) := ⟨fun a b c => keyLe_trans a.1 b.1 c.1⟩

/-- Lists with the keys of an ordered list, in the same order, are ordered. -/
theorem jaxOrder_keys {X Y : Type} (dc : Bool) (l : List (Key × X)) (l' : List (Key × Y))
    (h : l'.map Prod.fst = (jaxOrder dc l).map Prod.fst) : jaxOrder dc l' = l' := by
  unfold jaxOrder at h ⊢
  split
  · rfl
  · rename_i hd
    rw [if_neg hd] at h
    have hs : (sortK l).Pairwise (fun a b => keyLe a.1 b.1 = true) := List.pairwise_insertionSort _ _
    have hs' : ((sortK l).map Prod.fst).Pairwise (fun a b => keyLe a b = true) := by
      rw [List.pairwise_map]; exact hs
    rw [← h, List.pairwise_map] at hs'
    exact List.Pairwise.insertionSort_eq hs'

theorem flattenF_eq : ∀ cs : PForest β, flattenF cs = cs.toList.map (fun kt => (kt.1, flatten kt.2))
  | .nil => rfl
  | .cons k t r => by simp [flattenF, PForest.toList, flattenF_eq r]

theorem traverseF_eq : ∀ cs : PForest β, traverseF cs = cs.toList.map (fun kt => (kt.1, traverse kt.2))
  | .nil => rfl
  | .cons k t r => by simp [traverseF, PForest.toList, traverseF_eq r]

theorem unflattenF_eq : ∀ cs : PForest β,
    unflattenF (γ := γ) cs = cs.toList.map (fun kt => (kt.1, (flatten kt.2).length, unflatten kt.2))
  | .nil => rfl
  | .cons k t r => by simp [unflattenF, PForest.toList, unflattenF_eq r]

theorem flatten_node (dc : Bool) (cs : PForest β) :
    flatten (.node dc cs) = (jaxOrder dc cs.toList).flatMap (fun kt => flatten kt.2) := by
  rw [flatten, flattenF_eq, jaxOrder_map dc flatten, List.flatMap_map]

theorem traverse_node (dc : Bool) (cs : PForest β) :
    traverse (.node dc cs) = (sortK cs.toList).flatMap
      (fun kt => (traverse kt.2).map (fun pv => (rstrip (kt.1 ++ '/' :: pv.1), pv.2))) := by
  rw [traverse, traverseF_eq, sortK_map traverse, List.flatMap_map]

theorem unflatten_node (dc : Bool) (cs : PForest β) (vs : List γ) :
    unflatten (.node dc cs) vs = (rebuild ((jaxOrder dc cs.toList).map
      (fun kt => (kt.1, (flatten kt.2).length, unflatten kt.2))) vs).map (PTree.node dc) := by
  rw [unflatten, unflattenF_eq]
  rw [jaxOrder_map dc (fun t : PTree β => ((flatten t).length, (unflatten t : List γ → Option (PTree γ))))]

mutual
  def mapT (g : γ → δ) : PTree γ → PTree δ
    | .leaf v => .leaf (g v)
    | .node dc cs => .node dc (mapF g cs)
  def mapF (g : γ → δ) : PForest γ → PForest δ
    | .nil => .nil
    | .cons k t r => .cons k (mapT g t) (mapF g r)
end

/-- Unflattening commutes with mapping the values. -/
theorem unflatten_map (g : γ → δ) (t : PTree β) : ∀ vs, unflatten t (vs.map g) = (unflatten t vs).map (mapT g) := by
  induction t using PTree.induct' with
  | leaf v =>
    intro vs
    rw [unflatten, unflatten]
    match vs with
    | [] => rfl
    | [x] => rfl
    | _ :: _ :: _ => rfl
  | node dc cs ih =>
    intro vs
    rw [unflatten_node, unflatten_node]
    have key : ∀ (L : List (Key × PTree β)), (∀ kt ∈ L, ∀ vs, unflatten kt.2 (vs.map g) = (unflatten kt.2 vs).map (mapT g)) →
        ∀ vs, rebuild (L.map (fun kt => (kt.1, (flatten kt.2).length, unflatten kt.2))) (vs.map g) =
          (rebuild (L.map (fun kt => (kt.1, (flatten kt.2).length, unflatten kt.2))) vs).map (mapF g) := by
      intro L
      induction L with
      | nil =>
        intro _ vs
        cases vs with
        | nil => rfl
        | cons a vs => rfl
      | cons kt L ihL =>
        intro hL vs
        simp only [List.map_cons, rebuild]
        rw [← List.map_take, ← List.map_drop, hL kt List.mem_cons_self,
          ihL (fun x hx => hL x (List.mem_cons_of_mem _ hx))]
        cases unflatten kt.2 (vs.take (flatten kt.2).length) with
        | none => rfl
        | some r =>
          cases rebuild (L.map (fun kt => (kt.1, (flatten kt.2).length, unflatten kt.2))) (vs.drop (flatten kt.2).length) with
          | none => rfl
          | some R => rfl
    rw [key _ (fun kt hkt => ih kt ((jaxOrder_perm dc _).subset hkt))]
    rw [Option.map_map, Option.map_map]
    rfl

/-- Same keys on the path, same kind of node. -/
def SameView (t t' : PTree β) : Prop := ∀ path, (look t path).map view = (look t' path).map view

/-- Unflattening succeeds for the right number of values, and flattening gives them back. -/
theorem unflatten_flatten (t : PTree β) : ∀ vs : List γ, vs.length = (flatten t).length →
    ∃ r, unflatten t vs = some r ∧ flatten r = vs := by
  induction t using PTree.induct' with
  | leaf v =>
    intro vs h
    match vs, h with
    | [x], _ => exact ⟨.leaf x, rfl, rfl⟩
  | node dc cs ih =>
    intro vs h
    rw [unflatten_node]
    have key : ∀ (L : List (Key × PTree β)), (∀ kt ∈ L, ∀ vs : List γ, vs.length = (flatten kt.2).length →
        ∃ r, unflatten kt.2 vs = some r ∧ flatten r = vs) →
        ∀ vs : List γ, vs.length = (L.flatMap (fun kt => flatten kt.2)).length →
        ∃ R, rebuild (L.map (fun kt => (kt.1, (flatten kt.2).length, unflatten kt.2))) vs = some R ∧
          R.toList.map Prod.fst = L.map Prod.fst ∧ R.toList.flatMap (fun kt => flatten kt.2) = vs := by
      intro L
      induction L with
      | nil =>
        intro _ vs hv
        cases vs with
        | nil => exact ⟨.nil, rfl, rfl, rfl⟩
        | cons a vs => simp at hv
      | cons kt L ihL =>
        intro hL vs hv
        rw [List.flatMap_cons, List.length_append] at hv
        obtain ⟨r, h1, h2⟩ := hL kt List.mem_cons_self (vs.take (flatten kt.2).length) (by rw [List.length_take]; omega)
        obtain ⟨R, h3, h4, h5⟩ := ihL (fun x hx => hL x (List.mem_cons_of_mem _ hx)) (vs.drop (flatten kt.2).length)
          (by rw [List.length_drop]; omega)
        refine ⟨.cons kt.1 r R, ?_, ?_, ?_⟩
        · simp only [List.map_cons, rebuild, h1, h3]
        · simp only [PForest.toList, List.map_cons, h4]
        · simp only [PForest.toList, List.flatMap_cons, h2, h5, List.take_append_drop]
    rw [flatten_node] at h
    obtain ⟨R, h1, h2, h3⟩ := key _ (fun kt hkt => ih kt ((jaxOrder_perm dc _).subset hkt)) vs h
    refine ⟨.node dc R, by rw [h1]; rfl, ?_⟩
    rw [flatten_node, jaxOrder_keys dc _ _ h2]
    exact h3

/-- The two traversals visit the same leaves. -/
theorem traverse_perm (t : PTree β) : ((traverse t).map Prod.snd).Perm (flatten t) := by
  induction t using PTree.induct' with
  | leaf v => exact List.Perm.refl _
  | node dc cs ih =>
    rw [traverse_node, flatten_node, List.map_flatMap]
    refine List.Perm.trans ?_ (List.Perm.flatMap_right _ ((sortK_perm _).trans (jaxOrder_perm dc _).symm))
    have key : ∀ L : List (Key × PTree β), (∀ kt ∈ L, ((traverse kt.2).map Prod.snd).Perm (flatten kt.2)) →
        (L.flatMap (fun kt => ((traverse kt.2).map (fun pv => (rstrip (kt.1 ++ '/' :: pv.1), pv.2))).map Prod.snd)).Perm
          (L.flatMap (fun kt => flatten kt.2)) := by
      intro L
      induction L with
      | nil => intro _; exact List.Perm.refl _
      | cons a L ihL =>
        intro h
        rw [List.flatMap_cons, List.flatMap_cons]
        refine List.Perm.append ?_ (ihL (fun x hx => h x (List.mem_cons_of_mem _ hx)))
        rw [List.map_map]
        exact h a List.mem_cons_self
    exact key _ (fun kt hkt => ih kt ((sortK_perm _).subset hkt))

theorem lookF_eq : ∀ (cs : PForest β) (k : Key) (ks : List Key),
    lookF cs k ks = (cs.toList.find? (fun kt => kt.1 == k)).bind (fun kt => look kt.2 ks)
  | .nil, k, ks => by simp [lookF, PForest.toList]
  | .cons k' t r, k, ks => by
    simp only [lookF, PForest.toList, List.find?_cons]
    by_cases e : k' = k
    · simp [e]
    · have e' : (k' == k) = false := by simpa using e
      rw [if_neg e, e', lookF_eq r]

theorem keysF_eq : ∀ cs : PForest β, keysF cs = cs.toList.map Prod.fst
  | .nil => rfl
  | .cons k t r => by simp [keysF, PForest.toList, keysF_eq r]

theorem goodF_iff : ∀ cs : PForest β, GoodF cs ↔ (cs.toList.map Prod.fst).Nodup ∧
    ∀ kt ∈ cs.toList, GoodKey kt.1 ∧ Good kt.2
  | .nil => by simp [GoodF, PForest.toList]
  | .cons k t r => by
    rw [GoodF, goodF_iff r, keysF_eq]
    simp only [PForest.toList, List.map_cons, List.nodup_cons, List.mem_cons, forall_eq_or_imp]
    tauto

theorem find_perm {X : Type} {L L' : List (Key × X)} (hp : L.Perm L') (hn : (L.map Prod.fst).Nodup) (k : Key) :
    L.find? (fun kt => kt.1 == k) = L'.find? (fun kt => kt.1 == k) := by
  have main : ∀ {M : List (Key × X)}, (M.map Prod.fst).Nodup → ∀ kt, M.find? (fun kt => kt.1 == k) = some kt ↔
      kt ∈ M ∧ kt.1 = k := by
    intro M
    induction M with
    | nil => intro _ kt; simp
    | cons a M ih =>
      intro hM kt
      rw [List.map_cons, List.nodup_cons] at hM
      rw [List.find?_cons]
      by_cases e : a.1 = k
      · have e' : (a.1 == k) = true := by simpa using e
        rw [e']
        simp only [Option.some.injEq, List.mem_cons]
        constructor
        · rintro rfl; exact ⟨Or.inl rfl, e⟩
        · rintro ⟨rfl | h, h2⟩
          · rfl
          · exact absurd (List.mem_map.mpr ⟨kt, h, by rw [h2, e]⟩) hM.1
      · have e' : (a.1 == k) = false := by simpa using e
        rw [e']
        simp only [ih hM.2, List.mem_cons]
        constructor
        · rintro ⟨h, h2⟩; exact ⟨Or.inr h, h2⟩
        · rintro ⟨rfl | h, h2⟩
          · exact absurd h2 e
          · exact ⟨h, h2⟩
  refine Option.ext fun kt => ?_
  rw [main hn, main ((hp.map _).nodup_iff.mp hn), hp.mem_iff]

/-- Flattening and unflattening gives back the tree, up to the order of the entries of dicts. -/
theorem unflatten_self (t : PTree β) : Good t → ∃ r, unflatten t (flatten t) = some r ∧ SameView r t := by
  induction t using PTree.induct' with
  | leaf v => exact fun _ => ⟨.leaf v, rfl, fun path => rfl⟩
  | node dc cs ih =>
    intro hg
    rw [Good, goodF_iff] at hg
    obtain ⟨hn, hg⟩ := hg
    rw [unflatten_node, flatten_node]
    have key : ∀ (L : List (Key × PTree β)), (∀ kt ∈ L, ∃ r, unflatten kt.2 (flatten kt.2) = some r ∧ SameView r kt.2) →
        ∃ R, rebuild (L.map (fun kt => (kt.1, (flatten kt.2).length, unflatten kt.2))) (L.flatMap (fun kt => flatten kt.2)) = some R ∧
          ∀ k ks, ((R.toList.find? (fun kt => kt.1 == k)).bind (fun kt => look kt.2 ks)).map view =
            ((L.find? (fun kt => kt.1 == k)).bind (fun kt => look kt.2 ks)).map view := by
      intro L
      induction L with
      | nil => intro _; exact ⟨.nil, rfl, fun k ks => rfl⟩
      | cons kt L ihL =>
        intro hL
        obtain ⟨r, h1, h2⟩ := hL kt List.mem_cons_self
        obtain ⟨R, h3, h4⟩ := ihL (fun x hx => hL x (List.mem_cons_of_mem _ hx))
        refine ⟨.cons kt.1 r R, ?_, ?_⟩
        · simp only [List.map_cons, List.flatMap_cons, rebuild, List.take_left, List.drop_left, h1, h3]
        · intro k ks
          simp only [PForest.toList, List.find?_cons]
          cases kt.1 == k
          · exact h4 k ks
          · exact h2 ks
    obtain ⟨R, h1, h2⟩ := key (jaxOrder dc cs.toList) (fun kt hkt =>
      ih kt ((jaxOrder_perm dc _).subset hkt) (hg kt ((jaxOrder_perm dc _).subset hkt)).2)
    refine ⟨.node dc R, by rw [h1]; rfl, ?_⟩
    intro path
    cases path with
    | nil => rfl
    | cons k ks =>
      simp only [look]
      rw [lookF_eq, lookF_eq, h2, find_perm (jaxOrder_perm dc cs.toList)
        (((jaxOrder_perm dc cs.toList).map Prod.fst).nodup_iff.mpr hn)]

theorem look_map (g : γ → δ) (t : PTree γ) : ∀ path, look (mapT g t) path = (look t path).map (mapT g) := by
  induction t using PTree.induct' with
  | leaf v => intro path; cases path <;> rfl
  | node dc cs ih =>
    intro path
    cases path with
    | nil => rfl
    | cons k ks =>
      simp only [mapT, look]
      have key : ∀ cs : PForest γ, (∀ kt ∈ cs.toList, ∀ path, look (mapT g kt.2) path = (look kt.2 path).map (mapT g)) →
          lookF (mapF g cs) k ks = (lookF cs k ks).map (mapT g) := by
        intro cs
        induction cs using PForest.rec (motive_1 := fun _ => True) with
        | leaf => trivial
        | node => trivial
        | nil => intro _; rfl
        | cons k' t r _ ihr =>
          intro h
          simp only [mapF, lookF]
          split_ifs
          · exact h (k', t) List.mem_cons_self ks
          · exact ihr (fun x hx => h x (List.mem_cons_of_mem _ hx))
      exact key cs ih

theorem rstrip_good {s : Key} (h : s.getLast? ≠ some '/') : rstrip s = s := by
  unfold rstrip
  cases e : s.reverse with
  | nil => simp at e; simp [e]
  | cons c r =>
    have hl : s.getLast? = some c := by rw [← List.head?_reverse, e]; rfl
    have hc : c ≠ '/' := by intro h'; rw [hl, h'] at h; exact h rfl
    rw [List.dropWhile_cons_of_neg (by simpa using hc), ← e, List.reverse_reverse]

theorem rstrip_slash {s : Key} (h : s.getLast? ≠ some '/') : rstrip (s ++ ['/']) = s := by
  have := rstrip_good h
  unfold rstrip at this ⊢
  rw [List.reverse_append]
  simpa using this

theorem name_last : ∀ (p : List Key), p ≠ [] → (∀ k ∈ p, GoodKey k) → name p ≠ [] ∧ (name p).getLast? ≠ some '/'
  | [], h, _ => absurd rfl h
  | [k], _, hg => hg k List.mem_cons_self
  | k :: k' :: ks, _, hg => by
    obtain ⟨h1, h2⟩ := name_last (k' :: ks) (by simp) (fun x hx => hg x (List.mem_cons_of_mem _ hx))
    refine ⟨by simp [name], ?_⟩
    simp only [name]
    rw [List.getLast?_append, List.getLast?_cons]
    cases e : (name (k' :: ks)).getLast? with
    | none => rw [List.getLast?_eq_none_iff] at e; exact absurd e h1
    | some c =>
      rw [e] at h2
      simpa using h2

theorem rstrip_name (k : Key) (ks : List Key) (hk : GoodKey k) (hg : ∀ k ∈ ks, GoodKey k) :
    rstrip (k ++ '/' :: name ks) = name (k :: ks) := by
  cases ks with
  | nil => exact rstrip_slash hk.2
  | cons k' ks =>
    have := (name_last (k :: k' :: ks) (by simp) (by
      intro x hx
      rcases List.mem_cons.mp hx with rfl | hx
      · exact hk
      · exact hg x hx)).2
    exact rstrip_good this

/-- The traversal names every leaf by its path. -/
theorem traverse_name (t : PTree β) : ∀ path v, (∀ k ∈ path, GoodKey k) → look t path = some (.leaf v) →
    (name path, v) ∈ traverse t := by
  induction t using PTree.induct' with
  | leaf w =>
    intro path v _ h
    cases path with
    | nil =>
      simp only [look, Option.some.injEq, PTree.leaf.injEq] at h
      subst h
      simp [traverse, name]
    | cons k ks => simp [look] at h
  | node dc cs ih =>
    intro path v hk h
    cases path with
    | nil => simp [look] at h
    | cons k ks =>
      simp only [look] at h
      rw [lookF_eq] at h
      cases e : cs.toList.find? (fun kt => kt.1 == k) with
      | none => rw [e] at h; cases h
      | some kt =>
        rw [e] at h
        have hm := List.mem_of_find?_eq_some e
        have hkk : kt.1 = k := by simpa using List.find?_some e
        have := ih kt hm ks v (fun x hx => hk x (List.mem_cons_of_mem _ hx)) h
        rw [traverse_node, List.mem_flatMap]
        refine ⟨kt, (sortK_perm _).mem_iff.mpr hm, List.mem_map.mpr ⟨_, this, ?_⟩⟩
        dsimp only
        rw [hkk, rstrip_name k ks (hk k List.mem_cons_self) (fun x hx => hk x (List.mem_cons_of_mem _ hx))]

theorem good_path (t : PTree β) : Good t → ∀ path s, look t path = some s → ∀ k ∈ path, GoodKey k := by
  induction t using PTree.induct' with
  | leaf w =>
    intro _ path s h k hk
    cases path with
    | nil => cases hk
    | cons a as => simp [look] at h
  | node dc cs ih =>
    intro hg path s h k hk
    rw [Good, goodF_iff] at hg
    cases path with
    | nil => cases hk
    | cons a as =>
      simp only [look] at h
      rw [lookF_eq] at h
      cases e : cs.toList.find? (fun kt => kt.1 == a) with
      | none => rw [e] at h; cases h
      | some kt =>
        rw [e] at h
        have hm := List.mem_of_find?_eq_some e
        have hka : kt.1 = a := by simpa using List.find?_some e
        rcases List.mem_cons.mp hk with rfl | hk
        · rw [← hka]; exact (hg.2 kt hm).1
        · exact ih kt hm (hg.2 kt hm).2 as s h k hk

/-- `argsort` of a permutation is its inverse. -/
theorem argsort_inverse {p : List Nat} (hp : p.Perm (List.range p.length)) :
    (argsort p).map (fun i => p.getD i 0) = List.range p.length ∧ (argsort p).length = p.length := by
  have h1 : (argsort p).Perm (List.range p.length) := List.perm_insertionSort _ _
  have hm : (List.range p.length).map (fun i => p.getD i 0) = p := by
    apply List.ext_getElem
    · simp
    · intro i h1 h2
      simp [h2]
  refine ⟨?_, by rw [h1.length_eq, List.length_range]⟩
  have h2 : ((argsort p).map (fun i => p.getD i 0)).Perm (List.range p.length) := by
    refine (h1.map _).trans ?_
    rw [hm]
    exact hp
  have h3 : ((argsort p).map (fun i => p.getD i 0)).Pairwise (· ≤ ·) := by
    rw [List.pairwise_map]
    haveI : Std.Total (fun i j : Nat => p.getD i 0 ≤ p.getD j 0) := ⟨fun a b => Nat.le_total _ _⟩
    haveI : IsTrans Nat (fun i j : Nat => p.getD i 0 ≤ p.getD j 0) := ⟨fun a b c h h' => Nat.le_trans h h'⟩
    exact List.pairwise_insertionSort _ _
  exact List.Perm.eq_of_pairwise' h3 List.pairwise_le_range h2

end Verif.NamedTree
