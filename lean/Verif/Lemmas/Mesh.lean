import Verif.Spec.Mesh
import Verif.Lemmas.NDArray
import Mathlib.Algebra.BigOperators.Group.List.Basic
namespace Verif.Mesh
open Verif.ND Verif.Mesh.Spec

theorem lexLe_refl (a : List Nat) : lexLe a a = true := by
  induction a with
  | nil => rfl
  | cons x l ih => simp [lexLe, ih]

theorem lexLe_total : ∀ (a b : List Nat), lexLe a b = false → lexLe b a = true
  | [], _, h => by simp [lexLe] at h
  | _ :: _, [], _ => rfl
  | x :: a, y :: b, h => by
    simp only [lexLe, Bool.or_eq_false_iff, Bool.and_eq_false_iff, decide_eq_false_iff_not, beq_eq_false_iff_ne] at h
    simp only [lexLe, Bool.or_eq_true, Bool.and_eq_true, decide_eq_true_eq, beq_iff_eq]
    rcases h.2 with h2 | h2
    · left; omega
    · by_cases hxy : y = x
      · exact Or.inr ⟨hxy, lexLe_total a b h2⟩
      · left; omega

theorem lexLe_trans : ∀ (a b c : List Nat), lexLe a b = true → lexLe b c = true → lexLe a c = true
  | [], _, _, _, _ => rfl
  | _ :: _, [], _, h, _ => by simp [lexLe] at h
  | _ :: _, _ :: _, [], _, h => by simp [lexLe] at h
  | x :: a, y :: b, z :: c, h1, h2 => by
    simp only [lexLe, Bool.or_eq_true, Bool.and_eq_true, decide_eq_true_eq, beq_iff_eq] at *
    rcases h1 with h1 | ⟨rfl, h1⟩ <;> rcases h2 with h2 | ⟨rfl, h2⟩
    · left; omega
    · left; exact h1
    · left; exact h2
    · exact Or.inr ⟨rfl, lexLe_trans a b c h1 h2⟩

theorem lexLe_antisymm_of_le : ∀ (a b : List Nat), lexLe a b = true → List.Forall₂ (· ≤ ·) b a → a = b
  | [], _, _, h => by cases h; rfl
  | x :: a, _, h, .cons hyx hr => by
    simp only [lexLe, Bool.or_eq_true, Bool.and_eq_true, decide_eq_true_eq, beq_iff_eq] at h
    rcases h with h | ⟨rfl, h⟩
    · omega
    · rw [lexLe_antisymm_of_le a _ h hr]

theorem foldl_last (p : Platform) (ds : List Dev) : ∀ (d : Dev),
    (let r := ds.foldl (fun best x => if lexLe (getCoords p best) (getCoords p x) then x else best) d
     r ∈ d :: ds ∧ ∀ x ∈ d :: ds, lexLe (getCoords p x) (getCoords p r) = true) := by
  induction ds with
  | nil => intro d; simp [lexLe_refl]
  | cons e ds ih =>
    intro d
    simp only [List.foldl_cons]
    by_cases h : lexLe (getCoords p d) (getCoords p e) = true
    · rw [if_pos h]
      obtain ⟨h1, h2⟩ := ih e
      refine ⟨List.mem_cons_of_mem _ h1, ?_⟩
      intro x hx
      rcases List.mem_cons.mp hx with rfl | hx
      · exact lexLe_trans _ _ _ h (h2 e (List.mem_cons_self ..))
      · exact h2 x hx
    · rw [if_neg h]
      obtain ⟨h1, h2⟩ := ih d
      refine ⟨?_, ?_⟩
      · rcases List.mem_cons.mp h1 with h1 | h1
        · rw [h1]; exact List.mem_cons_self ..
        · exact List.mem_cons_of_mem _ (List.mem_cons_of_mem _ h1)
      · intro x hx
        rcases List.mem_cons.mp hx with rfl | hx
        · exact h2 x (List.mem_cons_self ..)
        · rcases List.mem_cons.mp hx with rfl | hx
          · exact lexLe_trans _ _ _ (lexLe_total _ _ (by simpa using h)) (h2 d (List.mem_cons_self ..))
          · exact h2 x (List.mem_cons_of_mem _ hx)

theorem lastDevice_spec (p : Platform) (devs : List Dev) (h : devs ≠ []) :
    ∃ d ∈ devs, lastDevice p devs = some d ∧ ∀ x ∈ devs, lexLe (getCoords p x) (getCoords p d) = true := by
  cases devs with
  | nil => exact absurd rfl h
  | cons d ds => exact ⟨_, (foldl_last p ds d).1, rfl, (foldl_last p ds d).2⟩

theorem inBox_pred {g : List Nat} (h : 0 < g.prod) : InBox g (g.map (· - 1)) := by
  unfold InBox
  induction g with
  | nil => exact List.Forall₂.nil
  | cons a l ih =>
    rw [List.prod_cons] at h
    have ha : 0 < a := Nat.pos_of_ne_zero (by rintro rfl; simp at h)
    have hl : 0 < l.prod := Nat.pos_of_ne_zero (by intro e; rw [e] at h; simp at h)
    exact List.Forall₂.cons (Nat.sub_lt ha Nat.one_pos) (ih hl)

theorem Spec.Fills.ne_nil {p : Platform} {devs : List Dev} {g : List Nat} (h : Fills p devs g) (hg : 0 < g.prod) : devs ≠ [] := by
  rintro rfl
  obtain ⟨d, hd, _⟩ := (h.mem _).mpr (inBox_pred hg)
  cases hd

/-- The lexicographically last device of a box has the largest coordinate on every axis. -/
theorem Spec.Fills.last {p : Platform} {devs : List Dev} {g : List Nat} (h : Fills p devs g) (hg : 0 < g.prod) :
    ∃ d ∈ devs, lastDevice p devs = some d ∧ getCoords p d = g.map (· - 1) := by
  obtain ⟨d, hd, h1, h2⟩ := lastDevice_spec p devs (h.ne_nil hg)
  refine ⟨d, hd, h1, ?_⟩
  obtain ⟨x, hx, hxc⟩ := (h.mem _).mpr (inBox_pred hg)
  have h3 := h2 x hx
  rw [hxc] at h3
  have h4 : InBox g (getCoords p d) := (h.mem _).mp ⟨d, hd, rfl⟩
  refine (lexLe_antisymm_of_le _ _ h3 ?_).symm
  generalize getCoords p d = c at h4
  unfold InBox at h4
  clear h3 h2 h1 hxc hx hg h
  induction h4 with
  | nil => exact List.Forall₂.nil
  | cons hab _ ih => exact List.Forall₂.cons (Nat.le_sub_one_of_lt hab) ih

theorem tpu_bounds {p : Platform} {devs : List Dev} {g : List Nat} (hc : ∀ d ∈ devs, ∃ x y z, d.coords = some [x, y, z])
    (hr : g.length = 4) (hg : 0 < g.prod) (h : Fills p devs g) : ∃ d, lastDevice p devs = some d ∧ bounds p d = g := by
  obtain ⟨d, hd, h1, h2⟩ := h.last hg
  refine ⟨d, h1, ?_⟩
  obtain ⟨x, y, z, hxyz⟩ := hc d hd
  match g, hr with
  | [a, b, c, e], _ =>
    simp only [getCoords, hxyz, List.cons_append, List.nil_append, List.map_cons, List.map_nil, List.cons.injEq] at h2
    simp only [bounds, hxyz]
    have : 0 < a ∧ 0 < b ∧ 0 < c ∧ 0 < e := by
      refine ⟨?_, ?_, ?_, ?_⟩ <;> (apply Nat.pos_of_ne_zero; rintro rfl; simp at hg)
    obtain ⟨h3, h4, h5, h6, _⟩ := h2
    simp only [List.cons.injEq, and_true]
    omega

theorem Spec.Topology.bounds {p : Platform} {devs locals : List Dev} {g l : List Nat} (h : Topology p devs locals g l) :
    ∃ dl ll, lastDevice p devs = some dl ∧ lastDevice p locals = some ll ∧ bounds p dl = g ∧ bounds p ll = l := by
  rcases h with h | h
  · obtain ⟨d, h1, h2⟩ := tpu_bounds (fun d hd => h.coords d (by simp [hd])) h.rank h.pos h.fills
    obtain ⟨e, h3, h4⟩ := tpu_bounds (fun d hd => h.coords d (by simp [hd])) h.lrank h.lpos h.lfills
    exact ⟨d, e, h1, h3, h2, h4⟩
  · obtain ⟨d, hd, h1, _⟩ := lastDevice_spec p devs (h.fills.ne_nil h.pos)
    obtain ⟨e, he, h2, _⟩ := lastDevice_spec p locals h.nonempty
    refine ⟨d, e, h1, h2, ?_, ?_⟩
    · simp [Mesh.bounds, h.coords d (by simp [hd]), h.bound]
    · simp [Mesh.bounds, h.coords e (by simp [he]), h.lbound, h.bound]

theorem Spec.Topology.fills {p : Platform} {devs locals : List Dev} {g l : List Nat} (h : Topology p devs locals g l) :
    Fills p devs g ∧ 0 < g.prod := by
  rcases h with h | h
  · exact ⟨h.fills, h.pos⟩
  · exact ⟨h.fills, h.pos⟩

theorem Spec.Topology.inBounds {p : Platform} {devs locals : List Dev} {g l : List Nat} (h : Topology p devs locals g l) :
    devs.any (fun d => ¬ ((getCoords p d).length = g.length ∧
        (List.zipWith (fun x y => decide (x < y)) (getCoords p d) g).all id)) = false := by
  rw [List.any_eq_false]
  intro d hd
  have hb : InBox g (getCoords p d) := (h.fills.1.mem _).mp ⟨d, hd, rfl⟩
  have : (List.zipWith (fun x y => decide (x < y)) (getCoords p d) g).all id = true := by
    generalize getCoords p d = c at hb
    unfold InBox at hb
    clear hd h
    induction hb with
    | nil => rfl
    | cons hab _ ih =>
      rw [List.zipWith_cons_cons, List.all_cons, ih]
      simp [hab]
  simp [hb.length, this]

theorem foldl_place (p : Platform) (devs : List Dev) (i : List Nat) : ∀ (acc : Option Dev),
    (∀ d ∈ devs, ∀ d' ∈ devs, getCoords p d = getCoords p d' → d = d') → ∀ d ∈ devs, getCoords p d = i →
    devs.foldl (fun acc d => if getCoords p d = i then some d else acc) acc = some d := by
  induction devs with
  | nil => intro acc _ d hd; cases hd
  | cons e ds ih =>
    intro acc hinj d hd hdi
    simp only [List.foldl_cons]
    by_cases hmem : d ∈ ds
    · exact ih _ (fun a ha b hb => hinj a (List.mem_cons_of_mem _ ha) b (List.mem_cons_of_mem _ hb)) d hmem hdi
    · have hde : d = e := by
        rcases List.mem_cons.mp hd with h | h
        · exact h
        · exact absurd h hmem
      subst hde
      rw [if_pos hdi]
      have : ∀ x ∈ ds, getCoords p x ≠ i := by
        intro x hx hxi
        have := hinj x (List.mem_cons_of_mem _ hx) d (List.mem_cons_self ..) (by rw [hxi, hdi])
        exact hmem (this ▸ hx)
      clear ih hinj hd hmem
      induction ds with
      | nil => rfl
      | cons f fs ih =>
        rw [List.foldl_cons, if_neg (this f (List.mem_cons_self ..))]
        exact ih (fun x hx => this x (List.mem_cons_of_mem _ hx))

theorem Spec.Fills.place_get {p : Platform} {devs : List Dev} {g : List Nat} (h : Fills p devs g) (d : Dev) (hd : d ∈ devs) :
    (place p g devs).get (getCoords p d) = some d := foldl_place p devs _ none h.inj d hd rfl

theorem Spec.Fills.enumerates {p : Platform} {devs : List Dev} {g : List Nat} (h : Fills p devs g) :
    Enumerates (place p g devs) devs := by
  constructor
  · intro i hi
    obtain ⟨d, hd, hdi⟩ := (h.mem i).mpr hi
    exact ⟨d, hd, hdi ▸ h.place_get d hd⟩
  · intro d hd
    refine ⟨getCoords p d, ⟨(h.mem _).mp ⟨d, hd, rfl⟩, h.place_get d hd⟩, ?_⟩
    rintro i ⟨hi, hid⟩
    obtain ⟨d', hd', hdi'⟩ := (h.mem i).mpr hi
    have h3 := h.place_get d' hd'
    rw [hdi', hid] at h3
    cases h3
    exact hdi'.symm

theorem blocks_enumerates {w n : Nat} {groups : List (List Nat)} {m : List Nat} {a e : NDArray (Option Dev)} {devs : List Dev}
    (h : Enumerates a devs) (hb : blocks w n groups m a = .ok e) :
    Enumerates e devs ∧ e.shape = [a.shape.prod / m.prod, m.prod] := by
  unfold blocks at hb
  cases h1 : reshape a groups.flatten with
  | none => rw [h1] at hb; cases hb
  | some b =>
    rw [h1] at hb
    dsimp only at hb
    cases h2 : transpose b (blockAxes w n) with
    | none => rw [h2] at hb; cases hb
    | some c =>
      rw [h2] at hb
      dsimp only at hb
      cases h3 : reshapeRows c m.prod with
      | none => rw [h3] at hb; cases hb
      | some e' =>
        rw [h3] at hb
        cases hb
        refine ⟨((h.reshape h1).transpose h2).reshapeRows h3, ?_⟩
        have hbp : b.shape.prod = a.shape.prod := by
          unfold reshape at h1
          split_ifs at h1 with hp
          cases h1; exact hp
        have hcp : c.shape.prod = b.shape.prod := by
          unfold transpose at h2
          split_ifs at h2 with hp
          cases h2
          dsimp only
          rw [(hp.map _).prod_eq]
          congr 1
          apply List.ext_getElem (by simp)
          intro k hk hk'
          simp [List.getD, hk']
        unfold reshapeRows reshape at h3
        split_ifs at h3
        cases h3
        simp [hcp, hbp]

/-- The three outcomes of the orientation. -/
theorem orient_cases {g m : List Nat} {a : NDArray (Option Dev)} {tile : Bool} {o : Oriented}
    (ho : orient g m a tile = .ok o) :
    (o = ⟨g, m, a, tile⟩ ∧ (g.length = 4 → m.length = 4) ∧ ¬ ZMajor g m) ∨
    ∃ gx gy gz gc mx my mz, g = [gx, gy, gz, gc] ∧ m = [mx, my, mz, gc] ∧ o.tile = false ∧
      ((((mx = gx ∧ gx > 1 ∧ my = 1 ∧ mz = 1) ∨ (mx = 1 ∧ my = gy ∧ gy > 1 ∧ mz = gz ∧ gz > 1)) ∧
        o.g = [gx, gz, gy, gc] ∧ o.m = [mx, mz, my, gc] ∧ transpose a [0, 2, 1, 3] = some o.devices) ∨
       (((my = gy ∧ gy > 1 ∧ mx = 1 ∧ mz = 1) ∨ (my = 1 ∧ mx = gx ∧ gx > 1 ∧ mz = gz ∧ gz > 1)) ∧
        o.g = [gz, gy, gx, gc] ∧ o.m = [mz, my, mx, gc] ∧ transpose a [2, 1, 0, 3] = some o.devices)) := by
  unfold orient at ho
  split at ho
  · rename_i gx gy gz gc
    split at ho
    · rename_i mx my mz mc
      dsimp only at ho
      by_cases c1 : (mx = gx ∧ gx > 1 ∧ my = mz ∧ mz = 1) ∨ (mx = 1 ∧ my = gy ∧ gy > 1 ∧ mz = gz ∧ gz > 1)
      · have c2 : ¬ ((my = gy ∧ gy > 1 ∧ mx = mz ∧ mz = 1) ∨ (my = 1 ∧ mx = gx ∧ gx > 1 ∧ mz = gz ∧ gz > 1)) := by omega
        rw [if_pos c1] at ho
        by_cases hc : mc = gc
        · rw [if_neg (by simpa using hc)] at ho
          subst hc
          cases ht : transpose a [0, 2, 1, 3] with
          | none => rw [ht] at ho; cases ho
          | some b =>
            rw [ht] at ho
            dsimp only at ho
            rw [if_neg c2] at ho
            cases ho
            exact Or.inr ⟨gx, gy, gz, mc, mx, my, mz, rfl, rfl, rfl, Or.inl ⟨by omega, rfl, rfl, rfl⟩⟩
        · rw [if_pos hc] at ho; cases ho
      · rw [if_neg c1] at ho
        dsimp only at ho
        by_cases c2 : ((my = gy ∧ gy > 1 ∧ mx = mz ∧ mz = 1) ∨ (my = 1 ∧ mx = gx ∧ gx > 1 ∧ mz = gz ∧ gz > 1))
        · rw [if_pos c2] at ho
          by_cases hc : mc = gc
          · rw [if_neg (by simpa using hc)] at ho
            subst hc
            cases ht : transpose a [2, 1, 0, 3] with
            | none => rw [ht] at ho; cases ho
            | some b =>
              rw [ht] at ho
              cases ho
              exact Or.inr ⟨gx, gy, gz, mc, mx, my, mz, rfl, rfl, rfl, Or.inr ⟨by omega, rfl, rfl, rfl⟩⟩
          · rw [if_pos hc] at ho; cases ho
        · rw [if_neg c2] at ho
          cases ho
          refine Or.inl ⟨rfl, fun _ => rfl, ?_⟩
          rintro ⟨_, _, _, _, _, _, _, _, e1, e2, hz⟩
          simp only [List.cons.injEq, and_true] at e1 e2
          obtain ⟨rfl, rfl, rfl, rfl⟩ := e1
          obtain ⟨rfl, rfl, rfl, rfl⟩ := e2
          clear * - c1 c2 hz
          omega
    · cases ho
  · rename_i hne
    cases ho
    refine Or.inl ⟨rfl, ?_, ?_⟩
    · intro h4
      match g, h4 with
      | [a, b, c, d], _ => exact absurd rfl (hne a b c d)
    · rintro ⟨a, b, c, d, _, _, _, _, rfl, _⟩
      exact absurd rfl (hne a b c d)

theorem orient_ok {g m : List Nat} {a : NDArray (Option Dev)} {tile : Bool} (ha : a.shape = g) (hlen : m.length = g.length)
    (hz : ZMajor g m → m.getD 3 0 = g.getD 3 0) : ∃ o, orient g m a tile = .ok o := by
  unfold orient
  split
  · rename_i gx gy gz gc
    match m, hlen with
    | [mx, my, mz, mc], _ =>
    have hz' : ((mx = gx ∧ gx > 1 ∧ my = 1 ∧ mz = 1) ∨ (mx = 1 ∧ my = gy ∧ gy > 1 ∧ mz = gz ∧ gz > 1) ∨
        (my = gy ∧ gy > 1 ∧ mx = 1 ∧ mz = 1) ∨ (my = 1 ∧ mx = gx ∧ gx > 1 ∧ mz = gz ∧ gz > 1)) → mc = gc := by
      intro hc
      have := hz ⟨gx, gy, gz, gc, mx, my, mz, mc, rfl, rfl, hc⟩
      simpa using this
    clear hz
    dsimp only
    have hperm1 : ([0, 2, 1, 3] : List Nat).Perm (List.range a.shape.length) := by
      rw [ha]; show ([0, 2, 1, 3] : List Nat).Perm (List.range 4); decide
    have hperm2 : ([2, 1, 0, 3] : List Nat).Perm (List.range a.shape.length) := by
      rw [ha]; show ([2, 1, 0, 3] : List Nat).Perm (List.range 4); decide
    by_cases c1 : (mx = gx ∧ gx > 1 ∧ my = mz ∧ mz = 1) ∨ (mx = 1 ∧ my = gy ∧ gy > 1 ∧ mz = gz ∧ gz > 1)
    · have c2 : ¬ ((my = gy ∧ gy > 1 ∧ mx = mz ∧ mz = 1) ∨ (my = 1 ∧ mx = gx ∧ gx > 1 ∧ mz = gz ∧ gz > 1)) := by
        clear * - c1; omega
      have hmc : mc = gc := hz' (by clear * - c1; omega)
      rw [if_pos c1, if_neg (by simpa using hmc)]
      unfold transpose
      rw [if_pos hperm1]
      dsimp only
      rw [if_neg c2]
      exact ⟨_, rfl⟩
    · rw [if_neg c1]
      dsimp only
      by_cases c2 : ((my = gy ∧ gy > 1 ∧ mx = mz ∧ mz = 1) ∨ (my = 1 ∧ mx = gx ∧ gx > 1 ∧ mz = gz ∧ gz > 1))
      · have hmc : mc = gc := hz' (by clear * - c2; omega)
        rw [if_pos c2, if_neg (by simpa using hmc)]
        unfold transpose
        rw [if_pos hperm2]
        exact ⟨_, rfl⟩
      · rw [if_neg c2]
        exact ⟨_, rfl⟩
  · exact ⟨_, rfl⟩

theorem orient_enumerates {g m : List Nat} {a : NDArray (Option Dev)} {tile : Bool} {o : Oriented} {devs : List Dev}
    (h : Enumerates a devs) (ha : a.shape = g) (ho : orient g m a tile = .ok o) :
    Enumerates o.devices devs ∧ o.devices.shape = o.g ∧ o.g.prod = g.prod ∧ o.m.prod = m.prod ∧ o.g.length = g.length ∧
      o.m.length = m.length := by
  rcases orient_cases ho with ⟨rfl, _⟩ | ⟨gx, gy, gz, gc, mx, my, mz, rfl, rfl, _, hc⟩
  · exact ⟨h, ha, rfl, rfl, rfl, rfl⟩
  · rcases hc with ⟨_, h1, h2, h3⟩ | ⟨_, h1, h2, h3⟩
    · refine ⟨h.transpose h3, ?_, ?_, ?_, ?_, ?_⟩
      · unfold transpose at h3
        split_ifs at h3
        rw [Option.some.injEq] at h3
        rw [← h3, h1]
        simp [ha]
      · rw [h1]; simp only [List.prod_cons, List.prod_nil]; ring
      · rw [h2]; simp only [List.prod_cons, List.prod_nil]; ring
      · rw [h1]; rfl
      · rw [h2]; rfl
    · refine ⟨h.transpose h3, ?_, ?_, ?_, ?_, ?_⟩
      · unfold transpose at h3
        split_ifs at h3
        rw [Option.some.injEq] at h3
        rw [← h3, h1]
        simp [ha]
      · rw [h1]; simp only [List.prod_cons, List.prod_nil]; ring
      · rw [h2]; simp only [List.prod_cons, List.prod_nil]; ring
      · rw [h1]; rfl
      · rw [h2]; rfl

end Verif.Mesh
