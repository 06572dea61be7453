import Verif.Lemmas.AxisRules
namespace Verif.AxisRules
open Verif.AxisRules.Spec

/-- **C75.** An array is given mesh axes exactly if no logical name occurs twice. -/
theorem C75_defined (names : List (Option Str)) (rules : List Rule) : (∃ res, logicalToMesh names rules = .ok res) ↔ Unique names := by
  rw [← noDuplicates_iff]
  unfold logicalToMesh
  by_cases h : noDuplicates names = true
  · simp [h]
  · simp [h]

/-- **C75.** The result has one entry per dimension; no mesh axis is used for two dimensions; a dimension is split only as a rule for its name says;
and rules are taken in order: a rule for a dimension's name is followed, unless an earlier rule for the name was, or an earlier rule gave one of the
mesh axes to another dimension. -/
theorem C75_assign (names : List (Option Str)) (rules : List Rule) (res : List Axes) (h : logicalToMesh names rules = .ok res) :
    res.length = names.length ∧
    (∀ (i j : Nat) (a b : Axes), i ≠ j → res[i]? = some a → res[j]? = some b → Disjoint a b) ∧
    (∀ (i : Nat) (l : List Str), res[i]? = some (some l) → ∃ n, names[i]? = some (some n) ∧ (n, some l) ∈ rules) ∧
    (∀ (i k : Nat) (n : Str) (a : Axes), names[i]? = some (some n) → rules[k]? = some (n, a) →
      (∃ k' b, k' ≤ k ∧ rules[k']? = some (n, b) ∧ res[i]? = some b) ∨
      (∃ i' k' n' b, i' ≠ i ∧ k' < k ∧ names[i']? = some (some n') ∧ rules[k']? = some (n', b) ∧ res[i']? = some b ∧ ¬ Disjoint a b)) := by
  have hr := result_of h
  exact ⟨hr.len, hr.disj, hr.src, hr.prio⟩

theorem std_batch {act par : Nat} {add rules : List Rule} (hr : standardRules act par add = .ok rules) :
    ∃ post, rules = ("batch".toList, data) :: post := by
  unfold standardRules at hr
  split at hr
  · cases hr
  · rename_i l hb
    cases hr
    unfold baseRules at hb
    split at hb <;> cases hb <;> exact ⟨_, rfl⟩

/-- How the rules for the four names begin. -/
theorem std_model {act par : Nat} {add rules : List Rule} (hr : standardRules act par add = .ok rules) (m : Str) (hm : m ∈ modelNames) :
    ∃ pre post, rules = pre ++ (m, model) :: post ∧ (∀ r ∈ pre, r.1 ≠ m) ∧ (∀ r ∈ pre, Disjoint model r.2 ∨ r.1 ∈ modelNames) ∧
      (act = 2 → ∀ r ∈ pre, r.1 ≠ "embed".toList) ∧ (∀ r ∈ pre, r.2 = model ∨ Disjoint model r.2) := by
  unfold standardRules at hr
  split at hr
  · cases hr
  · rename_i l hb
    cases hr
    unfold baseRules at hb
    simp only [modelNames, List.mem_cons, List.not_mem_nil, or_false] at hm
    split at hb <;> cases hb <;> rcases hm with rfl | rfl | rfl | rfl
    · exact ⟨[_], _, rfl, by decide, by decide, by decide, by decide⟩
    · exact ⟨[_, _, _], _, rfl, by decide, by decide, by decide, by decide⟩
    · exact ⟨[_, _, _, _], _, rfl, by decide, by decide, by decide, by decide⟩
    · exact ⟨[_, _, _, _, _, _], _, rfl, by decide, by decide, by decide, by decide⟩
    · exact ⟨[_], _, rfl, by decide, by decide, by decide, by decide⟩
    · exact ⟨[_, _], _, rfl, by decide, by decide, by decide, by decide⟩
    · exact ⟨[_, _, _], _, rfl, by decide, by decide, by decide, by decide⟩
    · exact ⟨[_, _, _, _, _], _, rfl, by decide, by decide, by decide, by decide⟩
    · exact ⟨[_], _, rfl, by decide, by decide, by decide, by decide⟩
    · exact ⟨[_, _], _, rfl, by decide, by decide, by decide, by decide⟩
    · exact ⟨[_, _, _], _, rfl, by decide, by decide, by decide, by decide⟩
    · exact ⟨[_, _, _, _, _], _, rfl, by decide, by decide, by decide, by decide⟩
    · exact ⟨[_], _, rfl, by decide, by decide, by decide, by decide⟩
    · exact ⟨[_, _], _, rfl, by decide, by decide, by decide, by decide⟩
    · exact ⟨[_, _, _], _, rfl, by decide, by decide, by decide, by decide⟩
    · exact ⟨[_, _, _, _, _], _, rfl, by decide, by decide, by decide, by decide⟩

/-- **C75.** With the standard rules the batch dimension is split over the data axis. -/
theorem C75_batch (act par : Nat) (add rules : List Rule) (names : List (Option Str)) (res : List Axes)
    (hr : standardRules act par add = .ok rules) (h : logicalToMesh names rules = .ok res) (i : Nat) (hi : names[i]? = some (some "batch".toList)) :
    res[i]? = some (some ["data".toList]) := by
  obtain ⟨post, rfl⟩ := std_batch hr
  exact winner [] post _ data (result_of h) i hi (by simp) (by simp)

/-- **C75.** With the standard rules the dimension 'vocab', 'mlp', 'heads' or 'joined_kv' of an array that has one of them is split over the model
axis. -/
theorem C75_model (act par : Nat) (add rules : List Rule) (names : List (Option Str)) (res : List Axes)
    (hr : standardRules act par add = .ok rules) (h : logicalToMesh names rules = .ok res) (i : Nat) (m : Str) (hm : m ∈ modelNames)
    (hi : names[i]? = some (some m)) (hone : ∀ m' ∈ modelNames, some m' ∈ names → m' = m) : res[i]? = some (some ["model".toList]) := by
  obtain ⟨pre, post, rfl, h1, h2, -, -⟩ := std_model hr m hm
  refine winner pre post m model (result_of h) i hi h1 ?_
  intro r hrp hrn
  rcases h2 r hrp with hd | hd
  · exact hd
  · exact absurd (hone _ hd hrn) (h1 r hrp)

theorem has_model {act par : Nat} {add rules : List Rule} {names : List (Option Str)} {res : List Axes}
    (hr : standardRules act par add = .ok rules) (h : Result names rules res) (ha : act = 2) (hm : ∃ m ∈ modelNames, some m ∈ names) (i : Nat)
    (hi : names[i]? = some (some "embed".toList)) (l : List Str) (hl : res[i]? = some (some l)) : Disjoint model (some l) := by
  obtain ⟨m, hm1, hm2⟩ := hm
  obtain ⟨pre, post, rfl, h1, -, h3, hall⟩ := std_model hr m hm1
  obtain ⟨i', n', b, e1, e2, e3, e4⟩ := someone pre post m model h hm2 h1 (by decide)
  have hne : n' ≠ "embed".toList := by
    rcases e2 with e2 | e2
    · exact h3 ha _ e2
    · cases e2
      intro e
      rw [e] at hm1
      exact absurd hm1 (by decide)
  have hii : i' ≠ i := by
    rintro rfl
    rw [hi] at e1
    cases e1
    exact hne rfl
  have hb : b = model ∨ Disjoint model b := by
    rcases e2 with e2 | e2
    · exact hall _ e2
    · cases e2; exact Or.inl rfl
  rcases hb with rfl | hb
  · exact h.disj i' i model (some l) hii e3 hl
  · exact absurd hb e4

/-- The rules for 'embed'. -/
theorem std_embed {act par : Nat} {add rules : List Rule} (hr : standardRules act par add = .ok rules) (hadd : ∀ r ∈ add, r.1 ≠ "embed".toList)
    (a : Axes) (ha : ("embed".toList, a) ∈ rules) :
    (act = 1 ∧ par = 1 ∧ a = none) ∨ (act = 2 ∧ a = model) ∨ (par = 2 ∧ a = data) := by
  unfold standardRules at hr
  split at hr
  · cases hr
  · rename_i l hb
    cases hr
    unfold baseRules at hb
    have hcut : ∀ (L : List Rule), (∀ r ∈ L, r.1 = "embed".toList → (act = 1 ∧ par = 1 ∧ r.2 = none) ∨ (act = 2 ∧ r.2 = model) ∨ (par = 2 ∧ r.2 = data)) →
        ("embed".toList, a) ∈ L ++ add → (act = 1 ∧ par = 1 ∧ a = none) ∨ (act = 2 ∧ a = model) ∨ (par = 2 ∧ a = data) := by
      intro L hL hm
      rcases List.mem_append.1 hm with hm | hm
      · exact hL _ hm rfl
      · exact absurd rfl (hadd _ hm)
    split at hb <;> cases hb <;> exact hcut _ (by decide) ha

/-- Where 'embed' can be split over the data axis, it is if nothing prevents it. -/
theorem std_embed_pre {act par : Nat} {add rules : List Rule} (hr : standardRules act par add = .ok rules) :
    (act = 2 → ∃ pre post, rules = pre ++ ("embed".toList, model) :: post ∧ (∀ r ∈ pre, r.1 ≠ "embed".toList) ∧
      (∀ r ∈ pre, r.1 ∈ modelNames ∨ Disjoint model r.2)) ∧
    (par = 2 → ∃ pre post, rules = pre ++ ("embed".toList, data) :: post ∧ (∀ r ∈ pre, r.1 = "embed".toList → act = 2 ∧ r.2 = model) ∧
      (∀ r ∈ pre, r.1 = "batch".toList ∨ Disjoint data r.2)) := by
  unfold standardRules at hr
  split at hr
  · cases hr
  · rename_i l hb
    cases hr
    unfold baseRules at hb
    split at hb <;> cases hb
    · exact ⟨fun h => absurd h (by decide), fun h => absurd h (by decide)⟩
    · exact ⟨fun _ => ⟨[_, _, _, _, _, _], _, rfl, by decide, by decide⟩, fun h => absurd h (by decide)⟩
    · exact ⟨fun h => absurd h (by decide), fun _ => ⟨[_, _, _, _, _, _], _, rfl, by decide, by decide⟩⟩
    · exact ⟨fun _ => ⟨[_, _, _, _, _, _], _, rfl, by decide, by decide⟩, fun _ => ⟨[_, _, _, _, _, _, _], _, rfl, by decide, by decide⟩⟩

/-- **C75.** With the standard rules the dimension 'embed' is split as the partitioning dims say. -/
theorem C75_embed (act par : Nat) (add rules : List Rule) (names : List (Option Str)) (res : List Axes)
    (hr : standardRules act par add = .ok rules) (h : logicalToMesh names rules = .ok res) (hadd : ∀ r ∈ add, r.1 ≠ "embed".toList)
    (i : Nat) (hi : names[i]? = some (some "embed".toList)) : res[i]? = some (embedAxes act par names) := by
  have hR := result_of h
  have hlt : i < res.length := by rw [hR.len]; exact (List.getElem?_eq_some_iff.1 hi).1
  obtain ⟨c, hc⟩ : ∃ c, res[i]? = some c := ⟨_, List.getElem?_eq_getElem hlt⟩
  -- what it can be
  have hsome : ∀ l, c = some l → (act = 2 ∧ c = model) ∨ (par = 2 ∧ c = data) := by
    rintro l rfl
    obtain ⟨n, hn, hm⟩ := hR.src i l hc
    rw [hi] at hn
    cases hn
    rcases std_embed hr hadd _ hm with ⟨_, _, e⟩ | e | e
    · cases e
    · exact Or.inl e
    · exact Or.inr e
  have hmodel : act = 2 → (∃ m ∈ modelNames, some m ∈ names) → c ≠ model := by
    intro ha hm e
    have := has_model hr hR ha hm i hi ["model".toList] (by rw [hc, e]; rfl)
    exact absurd this (by decide)
  have hbatch : some "batch".toList ∈ names → c ≠ data := by
    intro hb e
    obtain ⟨j, hj⟩ := List.mem_iff_getElem?.1 hb
    have hjd := C75_batch act par add rules names res hr h j hj
    have hij : i ≠ j := by
      rintro rfl
      rw [hi] at hj
      exact absurd hj (by decide)
    have := hR.disj i j c _ hij hc hjd
    rw [e] at this
    exact absurd this (by decide)
  rw [hc]
  unfold embedAxes
  congr 1
  split_ifs with h1 h2
  · obtain ⟨pre, post, e, p1, p2⟩ := (std_embed_pre hr).1 h1.1
    subst e
    have := winner pre post _ model hR i hi p1 (fun r hrp hrn => (p2 r hrp).resolve_left (fun hm => h1.2 ⟨_, hm, hrn⟩))
    rw [hc] at this
    exact Option.some.inj this
  · obtain ⟨pre, post, e, p1, p2⟩ := (std_embed_pre hr).2 h2.1
    subst e
    have hk : (pre ++ ("embed".toList, data) :: post)[pre.length]? = some ("embed".toList, data) := by
      rw [List.getElem?_append_right (le_refl _)]; simp
    rcases hR.prio i pre.length _ data hi hk with ⟨k', b, e1, e2, e3⟩ | ⟨i', k', n', b, e1, e2, e3, e4, e5, e6⟩
    · rw [hc] at e3
      cases e3
      rcases getElem_pre e1 e2 with hm | hm
      · obtain ⟨ha, hb⟩ := p1 _ hm rfl
        have hex : ∃ m ∈ modelNames, some m ∈ names := by
          by_contra hno
          exact h1 ⟨ha, hno⟩
        exact absurd hb (hmodel ha hex)
      · cases hm; rfl
    · rcases p2 _ (getElem_pre_lt e2 e4) with hb | hb
      · dsimp only at hb
        rw [hb] at e3
        exact absurd (List.mem_iff_getElem?.2 ⟨i', e3⟩) h2.2
      · exact absurd hb e6
  · cases hcc : c with
    | none => rfl
    | some l =>
      rcases hsome l hcc with ⟨ha, e⟩ | ⟨hp, e⟩
      · have hex : ∃ m ∈ modelNames, some m ∈ names := by
          by_contra hno
          exact h1 ⟨ha, hno⟩
        exact absurd e (hmodel ha hex)
      · have hb : some "batch".toList ∈ names := by
          by_contra hno
          exact h2 ⟨hp, hno⟩
        exact absurd e (hbatch hb)

/-- **C75.** Other numbers of partitioning dims than 1 and 2 are rejected. -/
theorem C75_dims (act par : Nat) (add : List Rule) :
    (∃ rules, standardRules act par add = .ok rules) ↔ (act = 1 ∨ act = 2) ∧ (par = 1 ∨ par = 2) := by
  constructor
  · rintro ⟨rules, hr⟩
    unfold standardRules at hr
    split at hr
    · cases hr
    · rename_i l hb
      unfold baseRules at hb
      split at hb <;> cases hb <;> decide
  · rintro ⟨rfl | rfl, rfl | rfl⟩ <;> exact ⟨_, rfl⟩

/-- **C75.** The axis over which data are split is that of the first rule for 'batch'; with a multi-slice mesh it is ('replica', 'data') if there is
such a rule. -/
theorem C75_data_axis (multiSlice : Bool) (rules : List Rule) :
    dataAxis (partitionerRules multiSlice rules) = .ok ((rules.find? (fun r => r.1 = "batch".toList)).elim none
      fun r => if multiSlice then some ["replica".toList, "data".toList] else r.2) := by
  have hu : Unique [some "batch".toList] := by
    intro i j n hi hj
    have hi' := (List.getElem?_eq_some_iff.1 hi).1
    have hj' := (List.getElem?_eq_some_iff.1 hj).1
    simp only [List.length_singleton] at hi' hj'
    omega
  have gen : ∀ L : List Rule, dataAxis L = .ok ((L.find? (fun r => r.1 = "batch".toList)).elim none (·.2)) := by
    intro L
    obtain ⟨res, hres⟩ := (C75_defined [some "batch".toList] L).2 hu
    have hR := result_of hres
    have hlen : res.length = 1 := hR.len
    obtain ⟨c, rfl⟩ := List.length_eq_one_iff.1 hlen
    simp only [dataAxis, hres]
    cases hf : L.find? (fun r => r.1 = "batch".toList) with
    | none =>
      cases c with
      | none => rfl
      | some l =>
        obtain ⟨n, hn, hm⟩ := hR.src 0 l rfl
        cases hn
        have := List.find?_eq_none.1 hf _ hm
        simp at this
    | some r =>
      obtain ⟨h1, pre, post, rfl, h2⟩ := List.find?_eq_some_iff_append.1 hf
      have hb : r.1 = "batch".toList := by simpa using h1
      have hr : r = ("batch".toList, r.2) := by rw [← hb]
      rw [hr] at hR
      have := winner pre post "batch".toList r.2 hR 0 rfl (fun r' hr' => by simpa using h2 r' hr') (fun r' hr' hn => by
        have hne : r'.1 ≠ "batch".toList := by simpa using h2 r' hr'
        rw [List.mem_singleton] at hn
        exact absurd (Option.some.inj hn) hne)
      simp only [List.getElem?_cons_zero, Option.some.injEq] at this
      rw [this]
      rfl
  rw [gen]
  cases multiSlice with
  | false =>
    simp only [partitionerRules, Bool.false_eq_true, if_false]
  | true =>
    simp only [partitionerRules, if_true]
    generalize some ["replica".toList, "data".toList] = rd
    generalize "batch".toList = bt
    congr 1
    induction rules with
    | nil => rfl
    | cons r l ih =>
      by_cases hb : r.1 = bt
      · simp [hb]
      · rw [List.map_cons, List.find?_cons_of_neg (by simpa using hb), List.find?_cons_of_neg (by simpa using hb)]
        exact ih

/-- **C75.** For a state: every entry keeps its name and place, entries without axes stay without, and the others have the mesh axes of their logical
axes. -/
theorem C75_state (rules : List Rule) (l : List (Str × Leaf)) (out : List (Str × MeshLeaf)) (h : getMeshAxes rules l = .ok out) :
    List.Forall₂ (fun x y => x.1 = y.1 ∧ (x.2 = .none → y.2 = .none) ∧ (x.2 = .empty → y.2 = .empty) ∧
      ∀ ns, x.2 = .names ns → ∃ m, logicalToMesh ns rules = .ok m ∧ y.2 = .spec m) l out := by
  induction l generalizing out with
  | nil => cases h; exact .nil
  | cons e rest ih =>
    obtain ⟨k, v⟩ := e
    cases hr : getMeshAxes rules rest with
    | error er =>
      simp only [getMeshAxes, hr] at h
      split at h
      · cases h
      · cases h
      · split at h <;> cases h
    | ok out' =>
      simp only [getMeshAxes, hr] at h
      split at h
      · cases h
        exact .cons ⟨rfl, fun _ => rfl, fun e => (by cases e), fun ns e => (by cases e)⟩ (ih _ hr)
      · cases h
        exact .cons ⟨rfl, fun e => (by cases e), fun _ => rfl, fun ns e => (by cases e)⟩ (ih _ hr)
      · rename_i ns
        split at h
        · cases h
        · rename_i m hm
          cases h
          refine .cons ⟨rfl, fun e => (by cases e), fun e => (by cases e), fun ns' e => ?_⟩ (ih _ hr)
          cases e
          exact ⟨m, hm, rfl⟩

/-- **C75.** It fails exactly if some entry has a logical name twice. -/
theorem C75_state_defined (rules : List Rule) (l : List (Str × Leaf)) :
    (∃ out, getMeshAxes rules l = .ok out) ↔ ∀ k ns, (k, Leaf.names ns) ∈ l → Unique ns := by
  induction l with
  | nil => exact ⟨fun _ k ns hm => (by cases hm), fun _ => ⟨[], rfl⟩⟩
  | cons e rest ih =>
    obtain ⟨k, v⟩ := e
    have tail : (∀ k' ns, (k', Leaf.names ns) ∈ (k, v) :: rest → Unique ns) ↔
        (∀ ns, v = .names ns → Unique ns) ∧ ∀ k' ns, (k', Leaf.names ns) ∈ rest → Unique ns := by
      constructor
      · intro h
        exact ⟨fun ns hv => h k ns (by rw [hv]; exact List.mem_cons_self), fun k' ns hm => h k' ns (List.mem_cons_of_mem _ hm)⟩
      · rintro ⟨h1, h2⟩ k' ns hm
        rcases List.mem_cons.1 hm with e | hm
        · cases e; exact h1 ns rfl
        · exact h2 k' ns hm
    rw [tail, ← ih]
    cases v with
    | none =>
      simp only [getMeshAxes]
      cases getMeshAxes rules rest <;> simp [Except.map]
    | empty =>
      simp only [getMeshAxes]
      cases getMeshAxes rules rest <;> simp [Except.map]
    | names ns =>
      simp only [getMeshAxes]
      have hd := C75_defined ns rules
      cases hl : logicalToMesh ns rules with
      | error er =>
        rw [hl] at hd
        have hn : ¬ Unique ns := fun hu => by obtain ⟨_, e⟩ := hd.2 hu; cases e
        simp [hn]
      | ok m =>
        have hn : Unique ns := hd.1 ⟨m, hl⟩
        cases getMeshAxes rules rest <;> simp [Except.map, hn]

/-- **C75.** Mixture-of-experts rules: the batch is split over the axes 'expert' and 'data', and without a batch dimension the expert dimension is
split over the axis 'expert'. -/
theorem C75_moe (act par : Nat) (add rules : List Rule) (hr : moeStandardRules act par add = .ok rules) (names : List (Option Str))
    (res : List Axes) (h : logicalToMesh names rules = .ok res) :
    (∀ i : Nat, names[i]? = some (some "batch".toList) → res[i]? = some (some ["expert".toList, "data".toList])) ∧
    (some "batch".toList ∉ names → ∀ i : Nat, names[i]? = some (some "expert".toList) → res[i]? = some (some ["expert".toList])) := by
  unfold moeStandardRules at hr
  split_ifs at hr with hp
  split at hr
  · cases hr
  · rename_i l hl
    cases hr
    unfold standardRules at hl
    split at hl
    · cases hl
    · rename_i l' hb
      cases hl
      unfold baseRules at hb
      have key : ∀ L post : List Rule, (∀ r ∈ L, r.1 = "batch".toList ∨ Disjoint (some ["expert".toList]) r.2) → (∀ r ∈ L, r.1 ≠ "expert".toList) →
          logicalToMesh names (L ++ ("expert".toList, some ["expert".toList]) :: post) = .ok res → some "batch".toList ∉ names →
          ∀ i : Nat, names[i]? = some (some "expert".toList) → res[i]? = some (some ["expert".toList]) := by
        intro L post h1 h2 h3 hn i hi
        refine winner L post _ _ (result_of h3) i hi h2 (fun r hr hrn => ?_)
        rcases h1 r hr with e | e
        · rw [e] at hrn; exact absurd hrn hn
        · exact e
      split at hb <;> cases hb
      · exact ⟨fun i hi => winner [] _ _ _ (result_of h) i hi (by simp) (by simp),
          key [_, _, _, _, _, _, _, _, _, _, _, _, _] _ (by decide) (by decide) h⟩
      · exact ⟨fun i hi => winner [] _ _ _ (result_of h) i hi (by simp) (by simp),
          key [_, _, _, _, _, _, _, _, _, _, _, _, _] _ (by decide) (by decide) h⟩
      · exact absurd rfl hp
      · exact absurd rfl hp

/-- **C75.** Two-dimensional parameter partitioning cannot be used with experts: instead of logging a warning, the code raises. -/
theorem C75_moe_2d (act : Nat) (add : List Rule) : moeStandardRules act 2 add = .error .typeError := rfl

/-- **C75.** With the default rules for experts the model axis goes to the dimension 'embed' of an expert kernel, not to 'expert_mlp'; only with
one-dimensional activation partitioning it goes to 'expert_mlp'. -/
theorem C75_moe_expert_mlp :
    (moeStandardRules 2 1 []).bind (logicalToMesh [some "expert".toList, some "embed".toList, some "expert_mlp".toList]) =
      .ok [some ["expert".toList], some ["model".toList], none] ∧
    (moeStandardRules 1 1 []).bind (logicalToMesh [some "expert".toList, some "embed".toList, some "expert_mlp".toList]) =
      .ok [some ["expert".toList], none, some ["model".toList]] := ⟨rfl, rfl⟩

/-! A kernel under two-dimensional parameter partitioning. -/

example : Unique [some "embed".toList, some "mlp".toList] := (noDuplicates_iff _).1 (by decide)
example : ∃ rules, standardRules 2 2 [("my_axis".toList, none)] = .ok rules ∧
    logicalToMesh [some "embed".toList, some "mlp".toList] rules = .ok [some ["data".toList], some ["model".toList]] := ⟨_, rfl, by rfl⟩
example : ∃ rules, standardRules 2 2 [] = .ok rules ∧
    logicalToMesh [some "batch".toList, some "length".toList, some "embed".toList] rules = .ok [some ["data".toList], none, some ["model".toList]] :=
  ⟨_, rfl, by rfl⟩
example : logicalToMesh [some "embed".toList, some "embed".toList] [] = .error .duplicate := by rfl
example : getMeshAxes [("mlp".toList, model)] [("state/step".toList, .none), ("target/w".toList, .names [none, some "mlp".toList]), ("x".toList, .empty)] =
    .ok [("state/step".toList, .none), ("target/w".toList, .spec [none, some ["model".toList]]), ("x".toList, .empty)] := by rfl
example : ∃ rules, moeStandardRules 2 1 [] = .ok rules ∧
    logicalToMesh [some "batch".toList, some "embed".toList] rules = .ok [some ["expert".toList, "data".toList], some ["model".toList]] :=
  ⟨_, rfl, by rfl⟩

end Verif.AxisRules
